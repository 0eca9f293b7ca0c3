import Verif.Spec.TimeSeriesImputer
import Verif.Props.PipelineExec
import Mathlib.Data.List.Induction
import Mathlib.Order.Basic
import Mathlib.Data.Int.Order.Basic
/-
Lemmas for C35 and C36: generated times, merging of cells, forward and backward passes as pure functions.
-/
namespace Feat
variable {K S : Type}

/-! ### Times -/

theorem mem_gridTimes (f a b t : Int) (hf : 0 < f) :
    t ∈ gridTimes f a b ↔ ∃ n : Nat, t = a + ((n : Int) + 1) * f ∧ t < b := by
  unfold gridTimes
  simp only [List.mem_map, List.mem_range]
  have key : ∀ n : Nat, n < ((b - a - 1) / f).toNat ↔ a + ((n : Int) + 1) * f < b := by
    intro n
    have h1 : n < ((b - a - 1) / f).toNat ↔ (n : Int) + 1 ≤ (b - a - 1) / f := by omega
    rw [h1, Int.le_ediv_iff_mul_le hf]
    omega
  constructor
  · rintro ⟨n, hn, rfl⟩
    exact ⟨n, rfl, (key n).1 hn⟩
  · rintro ⟨n, rfl, hn⟩
    exact ⟨n, (key n).2 hn, rfl⟩

theorem gridTimes_sorted (f a b : Int) (hf : 0 < f) : (gridTimes f a b).Pairwise (· < ·) := by
  unfold gridTimes
  rw [List.pairwise_map]
  apply List.Pairwise.imp _ List.pairwise_lt_range
  intro m n hmn
  have : ((m : Int) + 1) * f < ((n : Int) + 1) * f := Int.mul_lt_mul_of_pos_right (by omega) hf
  omega

theorem generateTimes_eq (f b : Int) (hf : 0 < f) (hb : b + f < 2 ^ 63) (space : Nat) :
    ∀ temp : Int, -2 ^ 63 ≤ temp → (b - temp + f - 1) / f ≤ space →
    generateTimes f b space temp
      = .ok ((List.range ((b - temp + f - 1) / f).toNat).map fun n : Nat => temp + (n : Int) * f) := by
  induction space with
  | zero =>
    intro temp _ hs
    unfold generateTimes
    have hn : ¬ temp < b := by
      intro h
      have : 1 ≤ (b - temp + f - 1) / f := by rw [Int.le_ediv_iff_mul_le hf]; omega
      omega
    rw [if_neg hn]
    have : ((b - temp + f - 1) / f).toNat = 0 := by omega
    rw [this]
    rfl
  | succ space ih =>
    intro temp ht hs
    unfold generateTimes
    by_cases h : temp < b
    · rw [if_pos h]
      have ha : addTime temp f = .ok (temp + f) := by
        unfold addTime
        rw [if_pos (by omega)]
      have hc : (b - temp + f - 1) / f = (b - (temp + f) + f - 1) / f + 1 := by
        have : b - temp + f - 1 = (b - (temp + f) + f - 1) + 1 * f := by omega
        rw [this, Int.add_mul_ediv_right _ _ (by omega)]
      have hn0 : 0 ≤ (b - (temp + f) + f - 1) / f := Int.ediv_nonneg (by omega) (by omega)
      have := ih (temp + f) (by omega) (by omega)
      simp only [ha, this]
      congr 1
      rw [hc, show ((b - (temp + f) + f - 1) / f + 1).toNat = ((b - (temp + f) + f - 1) / f).toNat + 1 by omega,
        List.range_succ_eq_map, List.map_cons, List.map_map]
      congr 1
      · simp
      · apply List.map_congr_left
        intro n _
        simp only [Function.comp]
        rw [Int.natCast_succ, Int.add_mul]
        omega
    · rw [if_neg h]
      have h1 : (b - temp + f - 1) / f ≤ (f - 1) / f := Int.ediv_le_ediv hf (by omega)
      have h2 : (f - 1) / f = 0 := Int.ediv_eq_zero_of_lt (by omega) (by omega)
      have : ((b - temp + f - 1) / f).toNat = 0 := by omega
      rw [this]
      rfl

theorem generateRows_eq (f : Int) (space : Nat) (x : TsIn K S) (a : Int) (hf : 0 < f)
    (hb : x.time + f < 2 ^ 63) (ha : -2 ^ 63 ≤ a) (hax : a ≤ x.time) (hs : (x.time - a) / f ≤ space) :
    generateRows f space x a = .ok (gridRows f a x ++ [x.row]) := by
  unfold generateRows
  have h1 : addTime a f = .ok (a + f) := by
    unfold addTime
    rw [if_pos (by omega)]
  have he : x.time - (a + f) + f - 1 = x.time - a - 1 := by omega
  have hle : (x.time - a - 1) / f ≤ (x.time - a) / f := Int.ediv_le_ediv hf (by omega)
  have h2 := generateTimes_eq f x.time hf hb space (a + f) (by omega) (by rw [he]; omega)
  rw [he] at h2
  simp only [h1, h2]
  congr 2
  unfold gridRows gridTimes
  rw [List.map_map, List.map_map]
  apply List.map_congr_left
  intro n _
  simp only [Function.comp]
  congr 1
  rw [Int.add_mul]
  omega

/-- With a frequency that is not positive, the loop never ends. -/
theorem generateTimes_diverges (f b : Int) (hf : f ≤ 0) (space : Nat) :
    ∀ temp, temp < b → ∃ e, generateTimes f b space temp = .error e := by
  induction space with
  | zero => intro temp h; exact ⟨.badAlloc, by unfold generateTimes; rw [if_pos h]⟩
  | succ space ih =>
    intro temp h
    unfold generateTimes
    rw [if_pos h]
    obtain ⟨e, he⟩ := ih (temp + f) (by omega)
    unfold addTime
    by_cases hr : -2 ^ 63 ≤ temp + f ∧ temp + f < 2 ^ 63
    · simp only [if_pos hr, he]
      exact ⟨e, rfl⟩
    · simp only [if_neg hr]
      exact ⟨_, rfl⟩

/-! ### Cells -/

/-- The cells of `current`, with nulls taken from `prev`. -/
def merge (prev current : List (Option S)) : List (Option S) :=
  List.zipWith (fun p c => c.or p) prev current

theorem tsImpute_eq (prev current : List (Option S)) (h : prev.length = current.length) :
    tsImpute prev current = .ok (merge prev current) := by
  induction current generalizing prev with
  | nil =>
    cases prev with
    | nil => rfl
    | cons p prev => simp at h
  | cons c current ih =>
    cases prev with
    | nil => simp at h
    | cons p prev =>
      simp only [List.length_cons, Nat.add_right_cancel_iff] at h
      cases c with
      | none => simp only [tsImpute, ih prev h]; rfl
      | some c => simp only [tsImpute, List.tail_cons, ih prev h]; rfl

theorem merge_length (a b : List (Option S)) (h : a.length = b.length) : (merge a b).length = b.length := by
  simp [merge, h]

theorem merge_get (a b : List (Option S)) (h : a.length = b.length) (i : Nat) :
    (merge a b)[i]? = (b[i]?).map fun x => x.or (a[i]?).join := by
  unfold merge
  rw [List.getElem?_zipWith]
  rcases hb : b[i]? with _ | y
  · have : a[i]? = none := by
      rw [List.getElem?_eq_none_iff] at hb ⊢
      omega
    rw [this]
    rfl
  · obtain ⟨x, hx⟩ : ∃ x, a[i]? = some x := by
      have h1 := (List.getElem?_eq_some_iff.1 hb).1
      exact ⟨a[i], List.getElem?_eq_getElem (by omega)⟩
    rw [hx]
    rfl

theorem merge_self (a : List (Option S)) : merge a a = a := by
  apply List.ext_getElem?
  intro i
  rw [merge_get a a rfl]
  rcases a[i]? with _ | _ | x <;> rfl

theorem merge_merge (a b c : List (Option S)) (h1 : a.length = b.length) (h2 : b.length = c.length) :
    merge a (merge b c) = merge (merge a b) c := by
  apply List.ext_getElem?
  intro i
  rw [merge_get _ _ (by rw [merge_length b c h2]; omega), merge_get b c h2,
    merge_get _ _ (by rw [merge_length a b h1]; omega), merge_get a b h1]
  rcases hc : c[i]? with _ | y
  · rfl
  · obtain ⟨x, hx⟩ : ∃ x, b[i]? = some x := by
      have h := (List.getElem?_eq_some_iff.1 hc).1
      exact ⟨b[i], List.getElem?_eq_getElem (by omega)⟩
    rw [hx]
    simp only [Option.map_some, Option.join_some]
    rw [Option.or_assoc]

theorem merge_full (a b : List (Option S)) (h : a.length = b.length) (hb : noNulls b = true) : merge a b = b := by
  apply List.ext_getElem?
  intro i
  rw [merge_get a b h]
  rcases hi : b[i]? with _ | y
  · rfl
  · have := List.all_eq_true.1 hb y (List.mem_of_getElem? hi)
    cases y with
    | none => cases this
    | some y => rfl

/-! ### Forward pass -/

/-- Forward fill of the rows after a row with the cells `base` (if any). -/
def ff : Option (List (Option S)) → List (TsRow K S) → List (TsRow K S)
  | _, [] => []
  | none, r :: rs => r :: ff (some r.cells) rs
  | some p, r :: rs => { r with cells := merge p r.cells } :: ff (some (merge p r.cells)) rs

theorem ff_length (base : Option (List (Option S))) (rows : List (TsRow K S)) :
    (ff base rows).length = rows.length := by
  induction rows generalizing base with
  | nil => cases base <;> rfl
  | cons r rs ih => cases base <;> simp [ff, ih]

theorem ff_append (base : Option (List (Option S))) (a b : List (TsRow K S)) :
    ff base (a ++ b) = ff base a ++ ff (match (ff base a).getLast? with | none => base | some r => some r.cells) b := by
  induction a generalizing base with
  | nil => cases base <;> simp [ff]
  | cons r rs ih =>
    cases base with
    | none =>
      simp only [List.cons_append, ff, ih]
      congr 1
      rcases h : ff (some r.cells) rs with _ | ⟨x, l⟩
      · simp
      · obtain ⟨y, hy⟩ : ∃ y, (x :: l).getLast? = some y := ⟨_, List.getLast?_cons⟩
        simp only [List.getLast?_cons_cons, hy]
    | some p =>
      simp only [List.cons_append, ff, ih]
      congr 1
      rcases h : ff (some (merge p r.cells)) rs with _ | ⟨x, l⟩
      · simp
      · obtain ⟨y, hy⟩ : ∃ y, (x :: l).getLast? = some y := ⟨_, List.getLast?_cons⟩
        simp only [List.getLast?_cons_cons, hy]

theorem ff_widths (w : Nat) (base : Option (List (Option S))) (rows : List (TsRow K S))
    (hb : ∀ p, base = some p → p.length = w) (hr : ∀ r ∈ rows, r.cells.length = w) :
    ∀ r ∈ ff base rows, r.cells.length = w := by
  induction rows generalizing base with
  | nil => cases base <;> simp [ff]
  | cons r rs ih =>
    have h1 := hr r (by simp)
    have h2 : ∀ r ∈ rs, r.cells.length = w := fun x hx => hr x (by simp [hx])
    cases base with
    | none =>
      intro x hx
      simp only [ff, List.mem_cons] at hx
      rcases hx with rfl | hx
      · exact h1
      · exact ih (some r.cells) (fun p hp => by cases hp; exact h1) h2 x hx
    | some p =>
      have hp := hb p rfl
      have hm : (merge p r.cells).length = w := by rw [merge_length _ _ (by omega)]; exact h1
      intro x hx
      simp only [ff, List.mem_cons] at hx
      rcases hx with rfl | hx
      · exact hm
      · exact ih (some (merge p r.cells)) (fun q hq => by cases hq; exact hm) h2 x hx

theorem fillRows_forward [LinearOrder K] (c : TsConfig K S) (hc : c.strategy = .forward) (key : K) (w : Nat)
    (last : TsRow K S) (rows : List (TsRow K S)) (hl : last.cells.length = w) (hr : ∀ r ∈ rows, r.cells.length = w) :
    fillRows c key last rows
      = (.ok (ff (some last.cells) rows), ((ff (some last.cells) rows).getLast?).getD last) := by
  induction rows generalizing last with
  | nil => rfl
  | cons r rs ih =>
    have h1 := hr r (by simp)
    have hm : (merge last.cells r.cells).length = w := by rw [merge_length _ _ (by omega)]; exact h1
    have := ih { r with cells := merge last.cells r.cells } hm (fun x hx => hr x (by simp [hx]))
    unfold fillRows
    rw [if_pos hc, tsImpute_eq _ _ (by omega)]
    simp only [this, ff]
    rcases h : ff (some (merge last.cells r.cells)) rs with _ | ⟨x, l⟩
    · simp
    · obtain ⟨y, hy⟩ : ∃ y, (x :: l).getLast? = some y := ⟨_, List.getLast?_cons⟩
      simp only [List.getLast?_cons_cons, hy, Option.getD_some]

theorem latest_append (xs ys : List (Option S)) (i : Nat) (v : S) (hi : i < xs.length) :
    LatestValue none (xs ++ ys) i v ↔ LatestValue none xs i v := by
  have hg : ∀ k, k ≤ i → (xs ++ ys)[k]? = xs[k]? := fun k hk => List.getElem?_append_left (by omega)
  simp only [LatestValue, reduceCtorEq, and_false, or_false]
  constructor
  · rintro ⟨j, h1, h2, h3⟩
    exact ⟨j, h1, by rw [← hg j h1]; exact h2, fun k h4 h5 => by rw [← hg k h5]; exact h3 k h4 h5⟩
  · rintro ⟨j, h1, h2, h3⟩
    exact ⟨j, h1, by rw [hg j h1]; exact h2, fun k h4 h5 => by rw [hg k h5]; exact h3 k h4 h5⟩

theorem latest_snoc (xs : List (Option S)) (x : Option S) (v : S) :
    LatestValue none (xs ++ [x]) xs.length v ↔
      x = some v ∨ (x = none ∧ xs ≠ [] ∧ LatestValue none xs (xs.length - 1) v) := by
  have hx : (xs ++ [x])[xs.length]? = some x := by simp
  have hg : ∀ k, k < xs.length → (xs ++ [x])[k]? = xs[k]? := fun k hk => List.getElem?_append_left hk
  simp only [LatestValue, reduceCtorEq, and_false, or_false]
  constructor
  · rintro ⟨j, h1, h2, h3⟩
    by_cases hj : j = xs.length
    · subst hj
      rw [hx] at h2
      cases h2
      exact .inl rfl
    · right
      have h4 := h3 xs.length (by omega) (Nat.le_refl _)
      rw [hx] at h4
      cases h4
      refine ⟨rfl, ?_, j, by omega, by rw [← hg j (by omega)]; exact h2, fun k h5 h6 => ?_⟩
      · rintro rfl; simp at hj h1; omega
      · rw [← hg k (by omega)]; exact h3 k h5 (by omega)
  · rintro (rfl | ⟨rfl, hne, j, h1, h2, h3⟩)
    · exact ⟨xs.length, Nat.le_refl _, hx, fun k h1 h2 => by omega⟩
    · have hl : xs.length ≠ 0 := fun h => hne (List.length_eq_zero_iff.1 h)
      refine ⟨j, by omega, by rw [hg j (by omega)]; exact h2, fun k h4 h5 => ?_⟩
      by_cases hk : k = xs.length
      · subst hk; exact hx
      · rw [hg k (by omega)]; exact h3 k h4 (by omega)

theorem column_length (c : Nat) (rows : List (TsRow K S)) : (column c rows).length = rows.length := by
  simp [column]

theorem column_append (c : Nat) (a b : List (TsRow K S)) : column c (a ++ b) = column c a ++ column c b := by
  simp [column]

private theorem some_some_join (o : Option (Option S)) (v : S) : o = some (some v) ↔ o.join = some v := by
  rcases o with _ | _ | x <;> simp

/-- The forward pass is a forward fill of every column. -/
theorem ff_filled (w : Nat) (rows : List (TsRow K S)) (hr : ∀ r ∈ rows, r.cells.length = w) :
    Filled (fun c i v => LatestValue none (column c rows) i v) rows (ff none rows) := by
  induction rows using List.reverseRecOn with
  | nil => exact ⟨rfl, by simp, by simp [ff]⟩
  | append_singleton rows e ih =>
    have hr' : ∀ r ∈ rows, r.cells.length = w := fun x hx => hr x (by simp [hx])
    have he : e.cells.length = w := hr e (by simp)
    obtain ⟨i1, i2, i3⟩ := ih hr'
    have hlen := ff_length none rows
    have hw := ff_widths w none rows (by simp) hr'
    rw [ff_append]
    -- the new row
    obtain ⟨x, hx, hxc, hx3⟩ : ∃ x : TsRow K S,
        ff (match (ff none rows).getLast? with | none => none | some r => some r.cells) [e] = [x] ∧
        (x.added = e.added ∧ x.time = e.time ∧ x.key = e.key ∧ x.cells.length = e.cells.length) ∧
        ∀ c v, x.cells[c]? = some (some v) ↔ LatestValue none (column c (rows ++ [e])) rows.length v := by
      have hl : ∀ c v, LatestValue none (column c (rows ++ [e])) rows.length v ↔
          (e.cells[c]?).join = some v ∨ ((e.cells[c]?).join = none ∧ column c rows ≠ [] ∧
            LatestValue none (column c rows) (rows.length - 1) v) := by
        intro c v
        have := latest_snoc (column c rows) ((e.cells[c]?).join) v
        rw [column_length] at this
        rw [← this, column_append]
        rfl
      rcases hlast : (ff none rows).getLast? with _ | l
      · have hnil : rows = [] := by
          rw [List.getLast?_eq_none_iff] at hlast
          rw [hlast] at hlen
          exact List.length_eq_zero_iff.1 hlen.symm
        subst hnil
        refine ⟨e, rfl, ⟨rfl, rfl, rfl, rfl⟩, fun c v => ?_⟩
        rw [hl, some_some_join]
        simp [column]
      · have hlm : l ∈ ff none rows := List.mem_of_getLast? hlast
        have hlw : l.cells.length = e.cells.length := by rw [hw l hlm, he]
        refine ⟨_, rfl, ⟨rfl, rfl, rfl, merge_length _ _ hlw⟩, fun c v => ?_⟩
        have hne : rows ≠ [] := by
          rintro rfl
          simp [ff] at hlast
        have hlast' : (ff none rows)[rows.length - 1]? = some l := by
          rw [List.getLast?_eq_getElem?, hlen] at hlast
          exact hlast
        have hcl := i3 (rows.length - 1) c v l hlast'
        rw [hl, ← hcl, merge_get _ _ hlw]
        have hcn : column c rows ≠ [] := by simp [column, hne]
        rcases hec : e.cells[c]? with _ | _ | y
        · have : l.cells[c]? = none := by
            rw [List.getElem?_eq_none_iff] at hec ⊢
            omega
          rw [this]
          simp
        · have : (l.cells[c]? = some (some v)) ↔ (l.cells[c]?).join = some v := some_some_join _ _
          rw [this]
          simp [hcn]
        · simp
    rw [hx]
    refine ⟨by simp [hlen], ?_, ?_⟩
    · intro i a b ha hb
      by_cases hi : i < rows.length
      · rw [List.getElem?_append_left hi] at ha
        rw [List.getElem?_append_left (by omega)] at hb
        exact i2 i a b ha hb
      · have hi' : i = rows.length := by
          have := (List.getElem?_eq_some_iff.1 ha).1
          simp at this
          omega
        subst hi'
        rw [List.getElem?_append_right (Nat.le_refl _), Nat.sub_self] at ha
        rw [List.getElem?_append_right (by omega), hlen, Nat.sub_self] at hb
        cases ha
        cases hb
        exact hxc
    · intro i c v r h
      by_cases hi : i < rows.length
      · rw [List.getElem?_append_left (by omega)] at h
        rw [i3 i c v r h, column_append, latest_append _ _ _ _ (by rw [column_length]; exact hi)]
      · have hi' : i = rows.length := by
          have := (List.getElem?_eq_some_iff.1 h).1
          simp [hlen] at this
          omega
        subst hi'
        rw [List.getElem?_append_right (by omega), hlen, Nat.sub_self] at h
        cases h
        exact hx3 c v

/-! ### Backward pass -/

/-- Backward fill of the rows before a row with the cells `base` (if any). -/
def bf (base : Option (List (Option S))) : List (TsRow K S) → List (TsRow K S)
  | [] => []
  | r :: rs =>
    match bf base rs with
    | [] => [{ r with cells := match base with | none => r.cells | some p => merge p r.cells }]
    | s :: ss => { r with cells := merge s.cells r.cells } :: s :: ss

theorem bf_length (base : Option (List (Option S))) (rows : List (TsRow K S)) :
    (bf base rows).length = rows.length := by
  induction rows with
  | nil => rfl
  | cons r rs ih =>
    simp only [bf]
    rcases h : bf base rs with _ | ⟨s, ss⟩
    · rw [h] at ih; simp at ih; simp [← ih]
    · rw [h] at ih; simp at ih; simp [ih]

/-- The cells of the first row, or `base`. -/
def headCells (base : Option (List (Option S))) (rows : List (TsRow K S)) : Option (List (Option S)) :=
  match rows with
  | [] => base
  | r :: _ => some r.cells

theorem bf_cons (base : Option (List (Option S))) (r : TsRow K S) (rs : List (TsRow K S)) :
    bf base (r :: rs) = { r with cells := match headCells base (bf base rs) with
      | none => r.cells
      | some p => merge p r.cells } :: bf base rs := by
  simp only [bf]
  rcases bf base rs with _ | ⟨s, ss⟩
  · rfl
  · rfl

theorem bf_append (base : Option (List (Option S))) (a b : List (TsRow K S)) :
    bf base (a ++ b) = bf (headCells base (bf base b)) a ++ bf base b := by
  induction a with
  | nil => simp [bf]
  | cons r rs ih =>
    rw [List.cons_append, bf_cons, bf_cons, List.cons_append, ih]
    congr 2
    have : headCells base (bf (headCells base (bf base b)) rs ++ bf base b)
        = headCells (headCells base (bf base b)) (bf (headCells base (bf base b)) rs) := by
      rcases bf (headCells base (bf base b)) rs with _ | ⟨s, ss⟩
      · simp only [List.nil_append]
        rcases bf base b with _ | ⟨t, ts⟩ <;> rfl
      · rfl
    rw [this]

theorem bf_widths (w : Nat) (base : Option (List (Option S))) (rows : List (TsRow K S))
    (hb : ∀ p, base = some p → p.length = w) (hr : ∀ r ∈ rows, r.cells.length = w) :
    (∀ r ∈ bf base rows, r.cells.length = w) ∧ ∀ p, headCells base (bf base rows) = some p → p.length = w := by
  induction rows with
  | nil => exact ⟨by simp [bf], fun p hp => hb p hp⟩
  | cons r rs ih =>
    obtain ⟨i1, i2⟩ := ih (fun x hx => hr x (by simp [hx]))
    have h1 := hr r (by simp)
    rw [bf_cons]
    have h2 : (match headCells base (bf base rs) with
      | none => r.cells
      | some p => merge p r.cells).length = w := by
      rcases hh : headCells base (bf base rs) with _ | p
      · exact h1
      · have := i2 p hh
        rw [merge_length _ _ (by omega)]
        exact h1
    constructor
    · intro x hx
      rcases List.mem_cons.1 hx with rfl | hx
      · exact h2
      · exact i1 x hx
    · intro p hp
      simp only [headCells, Option.some.injEq] at hp
      subst hp
      exact h2

/-- `over a base`: the base seen through the cells `a`. -/
private def over : Option (List (Option S)) → Option (List (Option S)) → Option (List (Option S))
  | none, b => b
  | some a, none => some a
  | some a, some b => some (merge b a)

/-- Filling again, towards a later base, what was already filled. -/
private theorem bf_bf_aux (w : Nat) (base : Option (List (Option S))) (rows : List (TsRow K S))
    (hb : ∀ p, base = some p → p.length = w) (hr : ∀ r ∈ rows, r.cells.length = w) :
    bf base (bf none rows) = bf base rows ∧
    headCells base (bf base rows) = over (headCells none (bf none rows)) base := by
  induction rows with
  | nil => exact ⟨rfl, by simp only [bf, headCells, over]⟩
  | cons r rs ih =>
    have hr' : ∀ x ∈ rs, x.cells.length = w := fun x hx => hr x (by simp [hx])
    have h1 := hr r (by simp)
    obtain ⟨i1, i2⟩ := ih hr'
    obtain ⟨w1, w2⟩ := bf_widths w none rs (by simp) hr'
    rw [bf_cons none, bf_cons base, bf_cons base, i1]
    -- the cells of the first row
    have hcell : (match headCells base (bf base rs) with
        | none => (match headCells none (bf none rs) with
            | none => r.cells
            | some p => merge p r.cells)
        | some p => merge p (match headCells none (bf none rs) with
            | none => r.cells
            | some p => merge p r.cells))
        = (match headCells base (bf base rs) with
          | none => r.cells
          | some p => merge p r.cells) := by
      rw [i2]
      rcases h0 : headCells none (bf none rs) with _ | a
      · rfl
      · have ha := w2 a h0
        rcases base with _ | b
        · simp only [over]
          rw [merge_merge a a r.cells rfl (by omega), merge_self]
        · have hbl := hb b rfl
          simp only [over]
          rw [merge_merge (merge b a) a r.cells (by rw [merge_length _ _ (by omega)]) (by omega),
            ← merge_merge b a a (by omega) rfl, merge_self]
    constructor
    · congr 2
    · have hh : ∀ (b : Option (List (Option S))) (x : TsRow K S) l, headCells b (x :: l) = some x.cells :=
        fun _ _ _ => rfl
      rw [hh, hh]
      simp only [i2]
      rcases h0 : headCells none (bf none rs) with _ | a
      · rcases base with _ | b <;> rfl
      · have ha := w2 a h0
        rcases base with _ | b
        · rfl
        · have hbl := hb b rfl
          simp only [over]
          rw [merge_merge b a r.cells (by omega) (by omega)]

theorem bf_bf (w : Nat) (a b : List (TsRow K S)) (ha : ∀ r ∈ a, r.cells.length = w)
    (hb : ∀ r ∈ b, r.cells.length = w) : bf none (bf none a ++ b) = bf none (a ++ b) := by
  rw [bf_append, bf_append]
  have := (bf_widths w none b (by simp) hb).2
  rw [(bf_bf_aux w _ a this ha).1]

/-- Rows without nulls do not depend on anything later. -/
theorem bf_full (w : Nat) (base base' : Option (List (Option S))) (rows : List (TsRow K S))
    (hb : ∀ p, base = some p → p.length = w) (hr : ∀ r ∈ rows, r.cells.length = w)
    (hext : ∀ p, base = some p → ∃ q, base' = some (merge q p) ∧ q.length = w)
    (hb' : ∀ p, base' = some p → p.length = w)
    (hfull : ∀ r ∈ bf base rows, noNulls r.cells = true) : bf base' rows = bf base rows := by
  have aux : bf base' rows = bf base rows ∧ (rows ≠ [] → True) := by
    induction rows with
    | nil => exact ⟨rfl, fun _ => trivial⟩
    | cons r rs ih =>
      have hr' : ∀ x ∈ rs, x.cells.length = w := fun x hx => hr x (by simp [hx])
      have h1 := hr r (by simp)
      rw [bf_cons base] at hfull
      have ih := (ih hr' (fun x hx => hfull x (by simp [hx]))).1
      obtain ⟨w3, w4⟩ := bf_widths w base rs hb hr'
      have hf := hfull _ (List.mem_cons_self)
      simp only at hf
      refine ⟨?_, fun _ => trivial⟩
      rw [bf_cons base, bf_cons base', ih]
      congr 2
      rcases hrs : bf base rs with _ | ⟨s, ss⟩
      · rw [hrs] at hf
        simp only [headCells] at hf ⊢
        rcases base with _ | p
        · simp only at hf ⊢
          rcases base' with _ | q
          · rfl
          · exact merge_full _ _ (by rw [hb' q rfl, h1]) hf
        · obtain ⟨q, hq, hql⟩ := hext p rfl
          subst hq
          have hp := hb p rfl
          simp only at hf ⊢
          rw [← merge_merge q p r.cells (by omega) (by omega)]
          exact merge_full _ _ (by rw [merge_length _ _ (by omega)]; omega) hf
      · rfl
  exact aux.1

/-- What was already output stays valid when rows are added. -/
theorem bf_extend (w : Nat) (e₁ e₂ rows : List (TsRow K S)) (h1 : ∀ r ∈ e₁, r.cells.length = w)
    (h2 : ∀ r ∈ e₂, r.cells.length = w) (h3 : ∀ r ∈ rows, r.cells.length = w)
    (hfull : ∀ r ∈ bf (headCells none (bf none e₂)) e₁, noNulls r.cells = true) :
    bf none (e₁ ++ e₂ ++ rows) = bf (headCells none (bf none e₂)) e₁ ++ bf none (bf none e₂ ++ rows) := by
  rw [List.append_assoc, bf_append, bf_bf w e₂ rows h2 h3]
  congr 1
  have hw2 := (bf_widths w none e₂ (by simp) h2).2
  have hw3 := (bf_widths w none rows (by simp) h3).2
  have h23 : ∀ r ∈ e₂ ++ rows, r.cells.length = w := fun r hr => by
    rcases List.mem_append.1 hr with h | h
    · exact h2 r h
    · exact h3 r h
  have hw23 := (bf_widths w none (e₂ ++ rows) (by simp) h23).2
  apply bf_full w _ _ e₁ hw2 h1 _ hw23 hfull
  intro p hp
  have hpl := hw2 p hp
  rw [bf_append]
  have hx := (bf_bf_aux w (headCells none (bf none rows)) e₂ hw3 h2).2
  have hh : headCells none (bf (headCells none (bf none rows)) e₂ ++ bf none rows)
      = headCells (headCells none (bf none rows)) (bf (headCells none (bf none rows)) e₂) := by
    rcases bf (headCells none (bf none rows)) e₂ with _ | ⟨s, ss⟩
    · rcases bf none rows with _ | ⟨t, ts⟩ <;> rfl
    · rfl
  rw [hh, hx, hp]
  rcases hb : headCells none (bf none rows) with _ | q
  · exact ⟨p, by simp only [over, merge_self], hpl⟩
  · exact ⟨q, rfl, hw3 q hb⟩

theorem backRows_eq (w : Nat) (rows : List (TsRow K S)) (last : TsRow K S) (hl : last.cells.length = w)
    (hr : ∀ r ∈ rows, r.cells.length = w) :
    backRows last rows = .ok (bf (some last.cells) rows.reverse).reverse := by
  induction rows generalizing last with
  | nil => rfl
  | cons r rs ih =>
    have h1 := hr r (by simp)
    have hm : (merge last.cells r.cells).length = w := by rw [merge_length _ _ (by omega)]; exact h1
    have := ih { r with cells := merge last.cells r.cells } hm (fun x hx => hr x (by simp [hx]))
    unfold backRows
    rw [tsImpute_eq _ _ (by omega)]
    simp only [this]
    rw [List.reverse_cons, bf_append]
    simp [bf, headCells]

theorem backRows_self (w : Nat) (front : List (TsRow K S)) (back : TsRow K S)
    (hr : ∀ r ∈ front ++ [back], r.cells.length = w) :
    backRows back (front ++ [back]).reverse = .ok (bf none (front ++ [back])).reverse := by
  rw [backRows_eq w _ back (hr back (by simp)) (by intro r h; exact hr r (List.mem_reverse.1 h)), List.reverse_reverse,
    bf_append, bf_append]
  simp [bf, headCells, merge_self]

theorem next_cons_zero (x : Option S) (xs : List (Option S)) (v : S) :
    NextValue none (x :: xs) 0 v ↔ x = some v ∨ (x = none ∧ NextValue none xs 0 v) := by
  simp only [NextValue, reduceCtorEq, and_false, or_false, Nat.zero_le, true_and, forall_true_left]
  constructor
  · rintro ⟨j, h1, h2⟩
    cases j with
    | zero => left; simpa using h1
    | succ j =>
      right
      have := h2 0 (by omega)
      refine ⟨by simpa using this, j, by simpa using h1, fun k hk => ?_⟩
      have := h2 (k + 1) (by omega)
      simpa using this
  · rintro (rfl | ⟨rfl, j, h1, h2⟩)
    · exact ⟨0, rfl, by intro k hk; omega⟩
    · refine ⟨j + 1, by simpa using h1, fun k hk => ?_⟩
      cases k with
      | zero => rfl
      | succ k => simpa using h2 k (by omega)

theorem next_cons_succ (x : Option S) (xs : List (Option S)) (i : Nat) (v : S) :
    NextValue none (x :: xs) (i + 1) v ↔ NextValue none xs i v := by
  simp only [NextValue, reduceCtorEq, and_false, or_false]
  constructor
  · rintro ⟨j, h1, h2, h3⟩
    cases j with
    | zero => omega
    | succ j =>
      refine ⟨j, by omega, by simpa using h2, fun k h4 h5 => ?_⟩
      have := h3 (k + 1) (by omega) (by omega)
      simpa using this
  · rintro ⟨j, h1, h2, h3⟩
    refine ⟨j + 1, by omega, by simpa using h2, fun k h4 h5 => ?_⟩
    cases k with
    | zero => omega
    | succ k => simpa using h3 k (by omega) (by omega)

/-- The backward pass is a backward fill of every column. -/
theorem bf_filled (w : Nat) (rows : List (TsRow K S)) (hr : ∀ r ∈ rows, r.cells.length = w) :
    Filled (fun c i v => NextValue none (column c rows) i v) rows (bf none rows) := by
  induction rows with
  | nil => exact ⟨rfl, by simp, by simp [bf]⟩
  | cons e rows ih =>
    have hr' : ∀ r ∈ rows, r.cells.length = w := fun x hx => hr x (by simp [hx])
    have he : e.cells.length = w := hr e (by simp)
    obtain ⟨i1, i2, i3⟩ := ih hr'
    have hw := bf_widths w none rows (by simp) hr'
    rw [bf_cons]
    have hcol : ∀ c, column c (e :: rows) = (e.cells[c]?).join :: column c rows := fun c => rfl
    have hcells : (match headCells none (bf none rows) with
        | none => e.cells
        | some p => merge p e.cells).length = e.cells.length ∧
        ∀ c v, (match headCells none (bf none rows) with
          | none => e.cells
          | some p => merge p e.cells)[c]? = some (some v) ↔ NextValue none (column c (e :: rows)) 0 v := by
      rcases hb : bf none rows with _ | ⟨s, ss⟩
      · have hnil : rows = [] := by
          rw [hb] at i1
          exact List.length_eq_zero_iff.1 i1.symm
        subst hnil
        refine ⟨rfl, fun c v => ?_⟩
        rw [hcol, next_cons_zero, some_some_join]
        simp [headCells, column, NextValue]
      · have hsl : s.cells.length = e.cells.length := by
          rw [he]
          exact hw.1 s (by rw [hb]; simp)
        refine ⟨merge_length _ _ hsl, fun c v => ?_⟩
        have hs := i3 0 c v s (by rw [hb]; rfl)
        simp only [headCells]
        rw [hcol, next_cons_zero, ← hs, merge_get _ _ hsl]
        rcases hec : e.cells[c]? with _ | _ | y
        · have : s.cells[c]? = none := by
            rw [List.getElem?_eq_none_iff] at hec ⊢
            omega
          rw [this]
          simp
        · rw [some_some_join s.cells[c]?]
          simp
        · simp
    refine ⟨by simp [i1], ?_, ?_⟩
    · intro i a b ha hb
      cases i with
      | zero =>
        simp only [List.getElem?_cons_zero, Option.some.injEq] at ha hb
        subst ha hb
        exact ⟨rfl, rfl, rfl, hcells.1⟩
      | succ i =>
        simp only [List.getElem?_cons_succ] at ha hb
        exact i2 i a b ha hb
    · intro i c v r h
      cases i with
      | zero =>
        simp only [List.getElem?_cons_zero, Option.some.injEq] at h
        subst h
        exact hcells.2 c v
      | succ i =>
        simp only [List.getElem?_cons_succ] at h
        rw [i3 i c v r h, hcol, next_cons_succ]

end Feat
