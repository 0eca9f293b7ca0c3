import Mathlib.Algebra.BigOperators.Group.List.Basic
import Mathlib.Algebra.Order.Group.Int
import Mathlib.Data.List.Induction
import Mathlib.Data.List.Sort
import Mathlib.Data.Rat.Defs
import Mathlib.Algebra.Order.Ring.Rat
import Mathlib.Algebra.Field.Rat
import Mathlib.Tactic.NormNum
import Verif.Proofs.PartStage
import Verif.Props.Median
import Verif.Props.PipelineTrain
import Verif.Props.TimeSeriesImputer
import Verif.Props.TsFrequency
import Verif.Spec.TimeSeriesTraining
/-
C63: training the time series imputer.
-/
namespace Feat
variable {K S D A : Type}

/-! ### The sums and counts -/

private def avg (types : List UInt32) (i : Nat) : Bool := supportsMedian (types.getD i 0)

private theorem averaged_iff (types : List UInt32) (i : Nat) : Averaged types i ↔ avg types i = true := by
  unfold Averaged avg
  rw [List.getD_eq_getElem?_getD]
  rcases types[i]? with _ | ty
  · simp only [reduceCtorEq, false_and, exists_false, Option.getD_none, false_iff]
    decide
  · simp

/-- What one cell does to the aggregate of its column `j`. -/
private def contrib (w : A → S → A) (types : List UInt32) (j : Nat) (a : A) : Option S → A
  | some v => if avg types j then w a v else a
  | none => a

/-- What the cells `cs` from column `i` on do to the aggregate of column `j`. -/
private def add (w : A → S → A) (types : List UInt32) (i : Nat) (cs : List (Option S)) (j : Nat) (a : A) : A :=
  if j < i then a
  else contrib w types j a (cs[j - i]?).join

private theorem add_nil (w : A → S → A) (types : List UInt32) (i j : Nat) (a : A) : add w types i [] j a = a := by
  simp [add, contrib]

private theorem add_cons (w : A → S → A) (types : List UInt32) (i : Nat) (c : Option S) (cs : List (Option S))
    (j : Nat) (a : A) : add w types i (c :: cs) j a
      = if j = i then contrib w types j a c
        else add w types (i + 1) cs j a := by
  unfold add
  rcases Nat.lt_trichotomy j i with h | h | h
  · rw [if_pos h, if_neg (by omega), if_pos (by omega)]
  · subst h
    rw [if_neg (by omega), if_pos rfl, Nat.sub_self]
    rfl
  · rw [if_neg (by omega), if_neg (by omega), if_neg (by omega)]
    obtain ⟨d, hd⟩ : ∃ d, j - i = d + 1 := ⟨j - i - 1, by omega⟩
    have : j - (i + 1) = d := by omega
    rw [hd, this]
    rfl

private theorem bump_eq [LinearOrder K] (m : OMap K (List A)) (key : K) (i : Nat) (f : A → A) (l : List A)
    (h : m.find? key = some l) (hi : i < l.length) : bump m key i f = some (m.set key (l.set i (f l[i]))) := by
  unfold bump
  simp only [h, List.getElem?_eq_getElem hi]

private theorem mapIdx_set (l : List A) (i : Nat) (hi : i < l.length) (d : A → A) (f g : Nat → A → A)
    (h : ∀ j a, g j a = if j = i then d a else f j a) (h0 : ∀ a, f i a = a) :
    (l.set i (d l[i])).mapIdx f = l.mapIdx g := by
  apply List.ext_getElem?
  intro j
  rw [List.getElem?_mapIdx, List.getElem?_mapIdx, List.getElem?_set]
  by_cases hj : i = j
  · subst hj
    rw [if_pos rfl, if_pos hi, List.getElem?_eq_getElem hi]
    simp [h0, h i]
  · rw [if_neg hj]
    congr 1
    funext a
    rw [h j, if_neg (Ne.symm hj)]

private theorem mapIdx_id (l : List A) : l.mapIdx (fun _ a => a) = l := by
  apply List.ext_getElem?
  intro j
  rw [List.getElem?_mapIdx]
  cases l[j]? <;> rfl

private theorem add_lt (w : A → S → A) (types : List UInt32) (i : Nat) (cs : List (Option S)) (j : Nat)
    (h : j < i) (a : A) : add w types i cs j a = a := by simp [add, h]

/-- Adding up. -/
private def sumStep [TsNum D] (val : S → D) (a : D) (v : S) : D := TsNum.plus a (val v)

/-- Counting. -/
private def countStep (n : Int) (_ : S) : Int := n + 1

private theorem cells_ok [LinearOrder K] [TsNum D] {α : Type} (parse : S → Except Err D) (val : S → D)
    (types : List UInt32) (key : K) (cs : List (Option S)) :
    ∀ (i : Nat) (s : TsMedian K D α) (L : List D) (N : List Int), s.sums.find? key = some L →
      s.counts.find? key = some N → i + cs.length ≤ L.length → i + cs.length ≤ N.length →
      i + cs.length ≤ types.length →
      (∀ (j : Nat) v, cs[j]? = some (some v) → avg types (i + j) = true → parse v = .ok (val v)) →
      ∃ s', TsMedian.cells parse types key i cs s = (.ok (), s') ∧ s'.maps = s.maps ∧
        (∀ k, k ≠ key → s'.sums.find? k = s.sums.find? k ∧ s'.counts.find? k = s.counts.find? k) ∧
        s'.sums.find? key = some (L.mapIdx fun j a => add (sumStep val) types i cs j a) ∧
        s'.counts.find? key = some (N.mapIdx fun j a => add countStep types i cs j a) := by
  induction cs with
  | nil =>
    intro i s L N h1 h2 _ _ _ _
    exact ⟨s, rfl, rfl, fun _ _ => ⟨rfl, rfl⟩, by simp [add_nil, h1, mapIdx_id], by simp [add_nil, h2, mapIdx_id]⟩
  | cons c cs ih =>
    intro i s L N h1 h2 h3 h4 h5 h6
    simp only [List.length_cons] at h3 h4 h5
    have h6' : ∀ (j : Nat) v, cs[j]? = some (some v) → avg types (i + 1 + j) = true → parse v = .ok (val v) := by
      intro j v hj ha
      exact h6 (j + 1) v (by simpa using hj) (by rw [← ha]; congr 1; omega)
    have hskip : ∀ (hz : ∀ {B : Type} (w : B → S → B) (b : B), contrib w types i b c = b),
        TsMedian.cells parse types key i (c :: cs) s = TsMedian.cells parse types key (i + 1) cs s →
        ∃ s', TsMedian.cells parse types key i (c :: cs) s = (.ok (), s') ∧ s'.maps = s.maps ∧
        (∀ k, k ≠ key → s'.sums.find? k = s.sums.find? k ∧ s'.counts.find? k = s.counts.find? k) ∧
        s'.sums.find? key = some (L.mapIdx fun j a => add (sumStep val) types i (c :: cs) j a) ∧
        s'.counts.find? key = some (N.mapIdx fun j a => add countStep types i (c :: cs) j a) := by
      intro hz he
      obtain ⟨s', e1, e2, e3, e4, e5⟩ := ih (i + 1) s L N h1 h2 (by omega) (by omega) (by omega) h6'
      have hadd : ∀ {B : Type} (w : B → S → B) j b, add w types i (c :: cs) j b = add w types (i + 1) cs j b := by
        intro B w j b
        rw [add_cons]
        by_cases hj : j = i
        · subst hj
          rw [if_pos rfl, hz w b, add_lt _ _ _ _ _ (by omega)]
        · rw [if_neg hj]
      rw [he]
      refine ⟨s', e1, e2, e3, ?_, ?_⟩
      · rw [e4]; simp only [hadd]
      · rw [e5]; simp only [hadd]
    cases c with
    | none => exact hskip (fun _ _ => rfl) rfl
    | some v =>
      have hty : types[i]? = some (types[i]'(by omega)) := List.getElem?_eq_getElem _
      have havg : avg types i = supportsMedian (types[i]'(by omega)) := by
        simp [avg, List.getD_eq_getElem?_getD, hty]
      by_cases hs : supportsMedian (types[i]'(by omega)) = false
      · refine hskip (fun w b => by simp [contrib, havg, hs]) ?_
        rw [TsMedian.cells]
        simp only [hty, hs, if_true]
      · simp only [Bool.not_eq_false] at hs
        have hv := h6 0 v (by simp) (by simp [havg, hs])
        have b1 := bump_eq s.sums key i (TsNum.plus · (val v)) L h1 (by omega)
        have b2 := bump_eq s.counts key i (· + 1) N h2 (by omega)
        obtain ⟨s', e1, e2, e3, e4, e5⟩ := ih (i + 1)
          { s with sums := s.sums.set key (L.set i (TsNum.plus L[i] (val v))), counts := s.counts.set key (N.set i (N[i] + 1)) }
          (L.set i (TsNum.plus L[i] (val v))) (N.set i (N[i] + 1)) (OMap.find?_set_self _ _ _) (OMap.find?_set_self _ _ _)
          (by rw [List.length_set]; omega) (by rw [List.length_set]; omega) (by omega) h6'
        refine ⟨s', ?_, e2, ?_, ?_, ?_⟩
        · rw [TsMedian.cells]
          simp only [hty, hs, Bool.true_eq_false, if_false, hv, b1, b2, e1]
        · intro k hk
          obtain ⟨e6, e7⟩ := e3 k hk
          exact ⟨e6.trans (OMap.find?_set_other _ _ _ _ hk), e7.trans (OMap.find?_set_other _ _ _ _ hk)⟩
        · rw [e4]
          congr 1
          refine mapIdx_set L i (by omega) (TsNum.plus · (val v)) _ _ (fun j a => ?_) (add_lt _ _ _ _ _ (by omega))
          rw [add_cons]
          by_cases hj : j = i
          · subst hj; simp [contrib, havg, hs, sumStep, countStep]
          · simp [hj]
        · rw [e5]
          congr 1
          refine mapIdx_set N i (by omega) (· + 1) _ _ (fun j a => ?_) (add_lt _ _ _ _ _ (by omega))
          rw [add_cons]
          by_cases hj : j = i
          · subst hj; simp [contrib, havg, hs, sumStep, countStep]
          · simp [hj]

/-- What all rows of a key do to a column. -/
private def total [DecidableEq K] (w : A → S → A) (z : A) (types : List UInt32) (k : K) (j : Nat)
    (rows : List (TsIn K S)) : A := (ofKey k rows).foldl (fun a r => add w types 0 r.cells j a) z

private theorem total_snoc [DecidableEq K] (w : A → S → A) (z : A) (types : List UInt32) (k : K) (j : Nat)
    (rows : List (TsIn K S)) (x : TsIn K S) : total w z types k j (rows ++ [x])
      = if x.key = k then add w types 0 x.cells j (total w z types k j rows) else total w z types k j rows := by
  unfold total ofKey
  rw [List.filter_append, List.foldl_append]
  by_cases h : x.key = k <;> simp [h]

private def rowOf [DecidableEq K] (w : A → S → A) (z : A) (types : List UInt32) (rows : List (TsIn K S)) (k : K) :
    Option (List A) :=
  (ofKey k rows).head?.map fun r => (List.range r.cells.length).map fun j => total w z types k j rows

private theorem rowOf_other [DecidableEq K] (w : A → S → A) (z : A) (types : List UInt32) (rows : List (TsIn K S))
    (x : TsIn K S) (k : K) (h : k ≠ x.key) : rowOf w z types (rows ++ [x]) k = rowOf w z types rows k := by
  unfold rowOf
  have : ofKey k (rows ++ [x]) = ofKey k rows := by simp [ofKey, List.filter_append, Ne.symm h]
  simp only [total_snoc, if_neg (Ne.symm h), this]

private theorem rowOf_same [DecidableEq K] (w : A → S → A) (z : A) (types : List UInt32) (rows : List (TsIn K S))
    (x : TsIn K S) (hw : ∀ y ∈ rows, y.key = x.key → y.cells.length = x.cells.length) :
    rowOf w z types (rows ++ [x]) x.key
      = some (((rowOf w z types rows x.key).getD (List.replicate x.cells.length z)).mapIdx
          fun j a => add w types 0 x.cells j a) := by
  unfold rowOf
  have : ofKey x.key (rows ++ [x]) = ofKey x.key rows ++ [x] := by simp [ofKey, List.filter_append]
  simp only [total_snoc, if_true, this]
  rcases hk : ofKey x.key rows with _ | ⟨y, l⟩
  · simp only [List.nil_append, List.head?_cons, Option.map_some, List.head?_nil, Option.map_none, Option.getD_none,
      Option.some.injEq]
    apply List.ext_getElem?
    intro j
    rw [List.getElem?_mapIdx, List.getElem?_map, List.getElem?_replicate]
    by_cases hj : j < x.cells.length
    · rw [List.getElem?_range hj, if_pos hj]
      simp [total, hk]
    · rw [if_neg hj, List.getElem?_eq_none (by simp; omega)]
      rfl
  · have hy : y ∈ ofKey x.key rows := by rw [hk]; simp
    have hy' : y ∈ rows ∧ y.key = x.key := by
      simp only [ofKey, List.mem_filter, beq_iff_eq] at hy
      exact hy
    have := hw y hy'.1 hy'.2
    simp only [List.cons_append, List.head?_cons, Option.map_some, Option.getD_some, Option.some.injEq]
    apply List.ext_getElem?
    intro j
    rw [List.getElem?_mapIdx, List.getElem?_map, List.getElem?_map]
    by_cases hj : j < y.cells.length
    · rw [List.getElem?_range hj]
      rfl
    · rw [List.getElem?_eq_none (by simp; omega)]
      rfl

/-- What the estimator knows after the rows. -/
private structure MedInv [LinearOrder K] [TsNum D] {α : Type} (val : S → D) (types : List UInt32)
    (rows : List (TsIn K S)) (s : TsMedian K D α) : Prop where
  sums : ∀ k, s.sums.find? k = rowOf (sumStep val) TsNum.zero types rows k
  counts : ∀ k, s.counts.find? k = rowOf countStep 0 types rows k

private theorem step_ok [LinearOrder K] [TsNum D] {α : Type} (parse : S → Except Err D) (val : S → D)
    (types : List UInt32) (pre : List (TsIn K S)) (x : TsIn K S) (s : TsMedian K D α) (hi : MedInv val types pre s)
    (hr : ReadableRows parse val types (pre ++ [x])) :
    ∃ s', TsMedian.step parse types x s = (.ok (), s') ∧ s'.maps = s.maps ∧ MedInv val types (pre ++ [x]) s' := by
  have hw : ∀ y ∈ pre, y.key = x.key → y.cells.length = x.cells.length := fun y hy hk =>
    hr.widths y (by simp [hy]) x (by simp) hk
  have hlen : ∀ {A : Type} (w : A → S → A) (z : A),
      ((rowOf w z types pre x.key).getD (List.replicate x.cells.length z)).length = x.cells.length := by
    intro A w z
    unfold rowOf
    rcases hk : ofKey x.key pre with _ | ⟨y, l⟩
    · simp
    · have hy : y ∈ ofKey x.key pre := by rw [hk]; simp
      simp only [ofKey, List.mem_filter, beq_iff_eq] at hy
      simp [hw y hy.1 hy.2]
  let s1 : TsMedian K D α := match s.sums.find? x.key with
    | none => { s with
        sums := s.sums.set x.key (List.replicate x.cells.length TsNum.zero)
        counts := s.counts.set x.key (List.replicate x.cells.length 0) }
    | some _ => s
  have hnone : ∀ {A B : Type} (w : A → S → A) (z : A) (w' : B → S → B) (z' : B),
      rowOf w z types pre x.key = none → rowOf w' z' types pre x.key = none := by
    intro A B w z w' z' h
    unfold rowOf at h ⊢
    rw [Option.map_eq_none_iff] at h ⊢
    exact h
  have h1 : s1.maps = s.maps ∧
      s1.sums.find? x.key = some ((rowOf (sumStep val) TsNum.zero types pre x.key).getD (List.replicate x.cells.length TsNum.zero)) ∧
      s1.counts.find? x.key
        = some ((rowOf countStep 0 types pre x.key).getD (List.replicate x.cells.length 0)) ∧
      ∀ k, k ≠ x.key → s1.sums.find? k = s.sums.find? k ∧ s1.counts.find? k = s.counts.find? k := by
    have e1 := hi.sums x.key
    have e2 := hi.counts x.key
    rcases hf : s.sums.find? x.key with _ | L
    · rw [hf] at e1
      have e3 := hnone _ _ countStep 0 e1.symm
      have : s1 = { s with
        sums := s.sums.set x.key (List.replicate x.cells.length TsNum.zero)
        counts := s.counts.set x.key (List.replicate x.cells.length 0) } := by
        simp only [s1, hf]
      rw [this, ← e1, e3]
      exact ⟨rfl, OMap.find?_set_self _ _ _, OMap.find?_set_self _ _ _, fun k hk =>
        ⟨OMap.find?_set_other _ _ _ _ hk, OMap.find?_set_other _ _ _ _ hk⟩⟩
    · have : s1 = s := by simp only [s1, hf]
      rw [hf] at e1
      rw [this, hf, ← e1, e2]
      refine ⟨rfl, rfl, ?_, fun _ _ => ⟨rfl, rfl⟩⟩
      rcases hc : rowOf countStep 0 types pre x.key with _ | N
      · rw [hnone _ _ _ _ hc] at e1; cases e1
      · rfl
  obtain ⟨h1, h2, h3, h4⟩ := h1
  obtain ⟨s', g1, g2, g3, g4, g5⟩ := cells_ok parse val types x.key x.cells 0 s1 _ _ h2 h3 (by rw [hlen]; omega)
    (by rw [hlen]; omega) (by have := hr.columns x (by simp); omega)
    (fun j v hj ha => hr.numbers x (by simp) j v hj ((averaged_iff types j).2 (by simpa using ha)))
  refine ⟨s', g1, g2.trans h1, ⟨fun k => ?_, fun k => ?_⟩⟩
  · by_cases hk : k = x.key
    · subst hk
      rw [g4, rowOf_same _ _ types pre x hw]
    · rw [rowOf_other _ _ types pre x k hk, (g3 k hk).1, (h4 k hk).1, hi.sums]
  · by_cases hk : k = x.key
    · subst hk
      rw [g5, rowOf_same _ _ types pre x hw]
    · rw [rowOf_other _ _ types pre x k hk, (g3 k hk).2, (h4 k hk).2, hi.counts]

private theorem ReadableRows.mono {parse : S → Except Err D} {val : S → D} {types : List UInt32}
    {rows rows' : List (TsIn K S)} (h : ReadableRows parse val types rows) (hs : ∀ x ∈ rows', x ∈ rows) :
    ReadableRows parse val types rows' :=
  ⟨⟨fun x hx => h.columns x (hs x hx), fun x hx y hy => h.widths x (hs x hx) y (hs y hy),
    fun x hx y hy => h.span x (hs x hx) y (hs y hy)⟩, fun x hx => h.numbers x (hs x hx)⟩

private theorem run_ok [LinearOrder K] [TsNum D] {α : Type} (parse : S → Except Err D) (val : S → D)
    (types : List UInt32) (rows : List (TsIn K S)) : ∀ (pre : List (TsIn K S)) (s : TsMedian K D α),
    MedInv val types pre s → ReadableRows parse val types (pre ++ rows) →
    ∃ s', TsMedian.run parse types rows s = (.ok (), s') ∧ s'.maps = s.maps ∧ MedInv val types (pre ++ rows) s' := by
  induction rows with
  | nil => intro pre s hi _; exact ⟨s, rfl, rfl, by simpa using hi⟩
  | cons x xs ih =>
    intro pre s hi hr
    rw [List.append_cons] at hr ⊢
    obtain ⟨s1, h1, h2, h3⟩ := step_ok parse val types pre x s hi (hr.mono (by simp; tauto))
    obtain ⟨s2, g1, g2, g3⟩ := ih (pre ++ [x]) s1 h3 hr
    refine ⟨s2, ?_, g2.trans h2, g3⟩
    rw [TsMedian.run, h1]
    exact g1

private theorem run_append' [LinearOrder K] [TsNum D] {α : Type} (parse : S → Except Err D) (types : List UInt32)
    (a b : List (TsIn K S)) (s : TsMedian K D α) :
    TsMedian.run parse types (a ++ b) s = match TsMedian.run parse types a s with
      | (.ok (), s') => TsMedian.run parse types b s'
      | (.error e, s') => (.error e, s') := by
  induction a generalizing s with
  | nil => rfl
  | cons r a ih =>
    simp only [List.cons_append, TsMedian.run]
    rcases TsMedian.step parse types r s with ⟨_ | _, s'⟩
    · rfl
    · exact ih s'

private theorem offer_run' [LinearOrder K] [TsNum D] {α : Type} (parse : S → Except Err D) (types : List UInt32)
    (wrap : OMap K (List D) → α) (batches : List (List (TsIn K S))) (hb : NoEmptyBatch batches) :
    ∀ s : TsMedian K D α, offer (tsMedianHooks parse types wrap) batches ⟨.training, false, s⟩
      = match TsMedian.run parse types batches.flatten s with
        | (.ok (), s') => (.ok (), ⟨.training, false, s'⟩)
        | (.error e, s') => (.error e, ⟨.training, false, s'⟩) := by
  induction batches with
  | nil => intro s; rfl
  | cons b bs ih =>
    intro s
    have ih := ih (fun b h => hb b (List.mem_cons_of_mem _ h))
    have hne : ¬ b.length = 0 := fun h => hb b (by simp) (List.length_eq_zero_iff.1 h)
    rw [List.flatten_cons, run_append']
    simp only [offer, if_true, Est.fit, ne_eq, not_true_eq_false, if_false, hne, tsMedianHooks]
    rcases TsMedian.run parse types b s with ⟨_ | _, s'⟩
    · rfl
    · simp only
      exact ih s'

/-! ### Completing -/

private theorem avg_cons (ty : UInt32) (types : List UInt32) (j : Nat) : avg (ty :: types) (j + 1) = avg types j := rfl

private theorem columns_ok [TsNum D] (sums : List D) : ∀ (types : List UInt32) (counts : List Int),
    sums.length ≤ types.length → sums.length = counts.length →
    ((∀ j n, counts[j]? = some n → avg types j = true → n ≠ 0) →
      completeColumns types sums counts
        = .ok (sums.mapIdx fun j a => if avg types j then TsNum.over a (counts.getD j 0) else a)) ∧
    ((∃ j : Nat, counts[j]? = some 0 ∧ avg types j = true) →
      completeColumns types sums counts = .error .runtimeError) := by
  induction sums with
  | nil =>
    intro types counts _ h
    have : counts = [] := List.length_eq_zero_iff.1 h.symm
    subst this
    exact ⟨fun _ => by simp [completeColumns], fun ⟨j, h, _⟩ => by simp at h⟩
  | cons a sums ih =>
    intro types counts h1 h2
    cases types with
    | nil => simp at h1
    | cons ty types =>
      cases counts with
      | nil => simp at h2
      | cons n counts =>
        obtain ⟨i1, i2⟩ := ih types counts (by simpa using h1) (by simpa using h2)
        constructor
        · intro h
          have h' := i1 (fun j n hn ha => h (j + 1) n (by simpa using hn) ha)
          rw [completeColumns]
          by_cases hs : supportsMedian ty = false
          · simp only [hs, if_true, h']
            simp [avg, hs]
          · simp only [Bool.not_eq_false] at hs
            have hn := h 0 n rfl hs
            simp only [hs, Bool.true_eq_false, if_false, hn, h']
            simp [avg, hs]
        · rintro ⟨j, hj, ha⟩
          rw [completeColumns]
          by_cases hs : supportsMedian ty = true ∧ n = 0
          · simp [hs]
          · cases j with
            | zero =>
              exfalso
              apply hs
              exact ⟨ha, by simpa using hj⟩
            | succ j =>
              have h' := i2 ⟨j, by simpa using hj, ha⟩
              rw [h']
              split
              · rfl
              · split <;> rfl

private theorem keys_ok [LinearOrder K] [TsNum D] (types : List UInt32) (counts : OMap K (List Int))
    (F : K → List D → List D) (l : List (K × List D)) :
    ((∀ e ∈ l, completeColumns types e.2 ((counts.find? e.1).getD []) = .ok (F e.1 e.2)) →
      completeKeys types counts l = .ok (l.map fun e => (e.1, F e.1 e.2))) ∧
    ((∀ e ∈ l, completeColumns types e.2 ((counts.find? e.1).getD []) = .ok (F e.1 e.2) ∨
        completeColumns types e.2 ((counts.find? e.1).getD []) = .error .runtimeError) →
      (∃ e ∈ l, completeColumns types e.2 ((counts.find? e.1).getD []) = .error .runtimeError) →
      completeKeys types counts l = .error .runtimeError) := by
  induction l with
  | nil => exact ⟨fun _ => rfl, fun _ ⟨e, he, _⟩ => by simp at he⟩
  | cons e l ih =>
    obtain ⟨k, v⟩ := e
    constructor
    · intro h
      rw [completeKeys, h (k, v) (by simp)]
      simp only
      rw [ih.1 (fun e he => h e (by simp [he]))]
      rfl
    · intro h1 h2
      rw [completeKeys]
      rcases h1 (k, v) (by simp) with h | h
      · simp only [h]
        rw [ih.2 (fun e he => h1 e (by simp [he])) (by
          obtain ⟨e, he, h3⟩ := h2
          rcases List.mem_cons.1 he with rfl | he
          · rw [h] at h3; cases h3
          · exact ⟨e, he, h3⟩)]
      · simp only [h]

private theorem divide_ok [LinearOrder K] [TsNum D] (types : List UInt32) (counts : OMap K (List Int))
    (sums : OMap K (List D)) (F : K → List D → List D) :
    ((∀ k l, sums.find? k = some l → completeColumns types l ((counts.find? k).getD []) = .ok (F k l)) →
      ∃ m, TsMedian.divide types counts sums = .ok m ∧ ∀ k, m.find? k = (sums.find? k).map (F k)) ∧
    ((∀ k l, sums.find? k = some l → completeColumns types l ((counts.find? k).getD []) = .ok (F k l) ∨
        completeColumns types l ((counts.find? k).getD []) = .error .runtimeError) →
      (∃ k l, sums.find? k = some l ∧ completeColumns types l ((counts.find? k).getD []) = .error .runtimeError) →
      TsMedian.divide types counts sums = .error .runtimeError) := by
  obtain ⟨k1, k2⟩ := keys_ok types counts F sums.entries
  constructor
  · intro h
    have hk := k1 (fun e he => h e.1 e.2 (sums.find?_of_mem e.1 e.2 he))
    unfold TsMedian.divide
    split
    · rename_i h'; rw [hk] at h'; cases h'
    · rename_i l h'
      rw [hk] at h'
      cases h'
      refine ⟨_, rfl, fun k => ?_⟩
      simp only [OMap.find?, List.find?_map]
      induction sums.entries with
      | nil => rfl
      | cons e l ih =>
        simp only [List.find?_cons, Function.comp]
        by_cases he : e.1 = k
        · subst he; simp
        · have : (e.1 == k) = false := by simpa using he
          simp only [this]
          exact ih
  · intro h1 ⟨k, l, h2, h3⟩
    have hk := k2 (fun e he => h1 e.1 e.2 (sums.find?_of_mem e.1 e.2 he)) ⟨(k, l), sums.mem_of_find? k l h2, h3⟩
    unfold TsMedian.divide
    split
    · rename_i h'; rw [hk] at h'; cases h'; rfl
    · rename_i h'; rw [hk] at h'; cases h'

/-! ### Sums and counts of the values -/

private theorem total_eq [DecidableEq K] (w : A → S → A) (z : A) (types : List UInt32) (k : K) (j : Nat)
    (rows : List (TsIn K S)) (ha : avg types j = true) :
    total w z types k j rows = ((ofKey k rows).filterMap fun r => (r.cells[j]?).join).foldl w z := by
  unfold total
  induction ofKey k rows generalizing z with
  | nil => rfl
  | cons r l ih =>
    rw [List.foldl_cons, ih, List.filterMap_cons]
    simp only [add, Nat.not_lt_zero, if_false, Nat.sub_zero]
    rcases (r.cells[j]?).join with _ | v
    · simp [contrib]
    · simp [contrib, ha]

private theorem total_not [DecidableEq K] (w : A → S → A) (z : A) (types : List UInt32) (k : K) (j : Nat)
    (rows : List (TsIn K S)) (ha : avg types j = false) : total w z types k j rows = z := by
  unfold total
  induction ofKey k rows generalizing z with
  | nil => rfl
  | cons r l ih =>
    rw [List.foldl_cons, ih]
    simp only [add, Nat.not_lt_zero, if_false, Nat.sub_zero]
    rcases (r.cells[j]?).join with _ | v <;> simp [contrib, ha]

private theorem count_eq [DecidableEq K] (val : S → D) (types : List UInt32) (k : K) (j : Nat)
    (rows : List (TsIn K S)) (ha : avg types j = true) :
    total countStep 0 types k j rows = ((keyValues val k j rows).length : Int) := by
  rw [total_eq _ _ types k j rows ha]
  unfold keyValues
  rw [List.length_map]
  suffices h : ∀ (l : List S) (z : Int), l.foldl countStep z = z + l.length by rw [h, zero_add]
  intro l
  induction l with
  | nil => intro z; simp
  | cons a l ih => intro z; rw [List.foldl_cons, ih, List.length_cons, countStep]; push_cast; omega

/-- The values published for the rows. -/
private def means [DecidableEq K] [TsNum D] (val : S → D) (types : List UInt32) (rows : List (TsIn K S)) (k : K) :
    Option (List D) :=
  (ofKey k rows).head?.map fun r => (List.range r.cells.length).map fun j =>
    if avg types j then average (keyValues val k j rows) else TsNum.zero

private theorem median_trained [LinearOrder K] [TsNum D] {α : Type} (parse : S → Except Err D) (val : S → D)
    (types : List UInt32) (wrap : OMap K (List D) → α) (batches : List (List (TsIn K S))) (hb : NoEmptyBatch batches)
    (maps : AnnotationMaps α) (hcol : 0 < maps.length) (hr : ReadableRows parse val types batches.flatten) :
    ((∀ x ∈ batches.flatten, ∀ i, i < x.cells.length → Averaged types i → keyValues val x.key i batches.flatten ≠ []) →
      ∃ m e, trainOnce (tsMedianHooks parse types wrap) batches (TsMedian.new maps) = (.ok (), e) ∧
        e.inner.maps = (addAnnotation (some (wrap m)) 0 "TimeSeriesMedianEstimator" maps).2 ∧
        ∀ k, m.find? k = means val types batches.flatten k) ∧
    ((∃ x ∈ batches.flatten, ∃ i, i < x.cells.length ∧ Averaged types i ∧ keyValues val x.key i batches.flatten = []) →
      (trainOnce (tsMedianHooks parse types wrap) batches (TsMedian.new maps)).1 = .error .runtimeError) := by
  have hi : MedInv val types [] (⟨maps, .empty, .empty⟩ : TsMedian K D α) := ⟨fun k => rfl, fun k => rfl⟩
  obtain ⟨s, h1, h2, h3⟩ := run_ok parse val types batches.flatten [] _ hi (by simpa using hr)
  rw [List.nil_append] at h3
  generalize hrows : batches.flatten = rows at *
  have hbegin : Est.beginTraining (tsMedianHooks parse types wrap) (TsMedian.new maps : Est (TsMedian K D α))
      = (.ok (), ⟨.training, false, ⟨maps, .empty, .empty⟩⟩) := rfl
  have ho := offer_run' parse types wrap batches hb (⟨maps, .empty, .empty⟩ : TsMedian K D α)
  rw [hrows, h1] at ho
  have htr : trainOnce (tsMedianHooks parse types wrap) batches (TsMedian.new maps)
      = Est.completeTraining (tsMedianHooks parse types wrap) ⟨.finished, false, s⟩ := by
    simp only [trainOnce, hbegin, ho]
    rfl
  -- the lists
  let F : K → List D → List D := fun k l => l.mapIdx fun j a =>
    if avg types j then TsNum.over a (((rowOf countStep 0 types rows k).getD []).getD j 0) else a
  have hcols : ∀ k l, s.sums.find? k = some l → ∃ x ∈ rows, x.key = k ∧
      l = (List.range x.cells.length).map (fun j => total (sumStep val) TsNum.zero types k j rows) ∧
      (s.counts.find? k).getD [] = (List.range x.cells.length).map (fun j => total countStep 0 types k j rows) := by
    intro k l hl
    rw [h3.sums] at hl
    rw [h3.counts]
    unfold rowOf at hl ⊢
    rcases hk : ofKey k rows with _ | ⟨y, l'⟩
    · rw [hk] at hl; cases hl
    · have hy : y ∈ ofKey k rows := by rw [hk]; simp
      simp only [ofKey, List.mem_filter, beq_iff_eq] at hy
      rw [hk] at hl
      cases hl
      exact ⟨y, hy.1, hy.2, rfl, rfl⟩
  have hone : ∀ k l, s.sums.find? k = some l →
      ((∀ x ∈ rows, x.key = k → ∀ i, i < x.cells.length → Averaged types i → keyValues val k i rows ≠ []) →
        completeColumns types l ((s.counts.find? k).getD []) = .ok (F k l)) ∧
      ((∃ x ∈ rows, x.key = k ∧ ∃ i, i < x.cells.length ∧ Averaged types i ∧ keyValues val k i rows = []) →
        completeColumns types l ((s.counts.find? k).getD []) = .error .runtimeError) := by
    intro k l hl
    obtain ⟨x, hx, rfl, hx1, hx2⟩ := hcols k l hl
    obtain ⟨c1, c2⟩ := columns_ok l types ((s.counts.find? x.key).getD [])
      (by rw [hx1]; simpa using hr.columns x hx) (by rw [hx1, hx2]; simp)
    have hcnt : ∀ j n, ((s.counts.find? x.key).getD [])[j]? = some n → j < x.cells.length ∧
        n = total countStep 0 types x.key j rows := by
      intro j n hn
      rw [hx2, List.getElem?_map] at hn
      by_cases hj : j < x.cells.length
      · rw [List.getElem?_range hj] at hn
        simp only [Option.map_some, Option.some.injEq] at hn
        exact ⟨hj, hn.symm⟩
      · rw [List.getElem?_eq_none (by simp; omega)] at hn
        cases hn
    constructor
    · intro hv
      rw [c1 (fun j n hn ha => ?_)]
      · simp only [F, h3.counts]
      · obtain ⟨hj, hn⟩ := hcnt j n hn
        rw [hn, count_eq val types x.key j rows ha]
        have := hv x hx rfl j hj ((averaged_iff types j).2 ha)
        intro h
        apply this
        exact List.length_eq_zero_iff.1 (by omega)
    · rintro ⟨y, hy, hyk, j, hj, ha, hv⟩
      refine c2 ⟨j, ?_, (averaged_iff types j).1 ha⟩
      have hw := hr.widths y hy x hx hyk
      rw [hx2, List.getElem?_map, List.getElem?_range (by omega), Option.map_some,
        count_eq val types x.key j rows ((averaged_iff types j).1 ha), hv]
      rfl
  obtain ⟨d1, d2⟩ := divide_ok types s.counts s.sums F
  constructor
  · intro hv
    obtain ⟨m, hm1, hm2⟩ := d1 (fun k l hl => (hone k l hl).1 (fun x hx hxk i hi ha => hxk ▸ hv x hx i hi ha))
    have hadd := addAnnotation_ok maps (wrap m) 0 "TimeSeriesMedianEstimator" hcol
    refine ⟨m, ⟨.completed, false, ⟨(addAnnotation (some (wrap m)) 0 "TimeSeriesMedianEstimator" maps).2,
      .empty, .empty⟩⟩, ?_, rfl, fun k => ?_⟩
    · rw [htr]
      simp only [Est.completeTraining, tsMedianHooks, hm1]
      simp only [h2]
      rw [hadd.1]
      simp
    · rw [hm2, h3.sums]
      unfold rowOf means
      rcases hk : ofKey k rows with _ | ⟨y, l'⟩
      · rfl
      · have hy : y ∈ ofKey k rows := by rw [hk]; simp
        simp only [ofKey, List.mem_filter, beq_iff_eq] at hy
        simp only [List.head?_cons, Option.map_some, F, Option.some.injEq, rowOf, hk, Option.getD_some]
        apply List.ext_getElem?
        intro j
        rw [List.getElem?_mapIdx, List.getElem?_map, List.getElem?_map]
        by_cases hj : j < y.cells.length
        · rw [List.getElem?_range hj]
          simp only [Option.map_some, Option.some.injEq, List.getD_eq_getElem?_getD, List.getElem?_map,
            List.getElem?_range hj, Option.getD_some]
          by_cases ha : avg types j = true
          · simp only [ha, if_true, count_eq val types k j rows ha, total_eq _ _ types k j rows ha]
            unfold average keyValues
            rw [List.foldl_map]
            rfl
          · simp only [Bool.not_eq_true] at ha
            simp [ha, total_not _ _ types k j rows ha]
        · rw [List.getElem?_eq_none (by simp; omega)]
          rfl
  · rintro ⟨x, hx, i, hi, ha, hv⟩
    have hfound : ∃ l, s.sums.find? x.key = some l := by
      rw [h3.sums]
      unfold rowOf
      rcases hk : ofKey x.key rows with _ | ⟨y, l'⟩
      · exfalso
        have : x ∈ ofKey x.key rows := by simp [ofKey, hx]
        rw [hk] at this
        simp at this
      · exact ⟨_, rfl⟩
    obtain ⟨l, hl⟩ := hfound
    have hdiv := d2 (fun k l hl => by
        by_cases h : ∃ x ∈ rows, x.key = k ∧ ∃ i, i < x.cells.length ∧ Averaged types i ∧ keyValues val k i rows = []
        · exact .inr ((hone k l hl).2 h)
        · refine .inl ((hone k l hl).1 (fun x hx hxk i hi ha hv => h ⟨x, hx, hxk, i, hi, ha, hv⟩)))
      ⟨x.key, l, hl, (hone x.key l hl).2 ⟨x, hx, rfl, i, hi, ha, hv⟩⟩
    rw [htr]
    simp only [Est.completeTraining, tsMedianHooks, hdiv]
    rfl

/-! ### The pipeline -/

private theorem first_of_get {α : Type} (maps : AnnotationMaps α) (name : String) (a : α)
    (h : getAnnotation (fun _ => true) maps 0 name = .ok (some a)) : firstAnnotation maps name = .ok a := by
  unfold getAnnotation at h
  split at h
  · cases h
  · split at h
    · cases h
    · cases maps with
      | nil => simp at *
      | cons c l =>
        simp only [List.getD_cons_zero] at h
        unfold firstAnnotation
        rcases hf : c.find? (fun e => e.1 == name) with _ | ⟨n, as⟩
        · rw [hf] at h; cases h
        · rw [hf] at h
          cases as with
          | nil => simp at h
          | cons b as =>
            simp only [List.find?_cons, Except.ok.injEq, Option.some.injEq] at h
            subst h
            simp only [hf]

private theorem part_frequency [LinearOrder K] :
    IsPart (fun g : TsState K D => (⟨g.maps, g.tracker, g.minFrequency⟩ : TsFrequency K (TsAnnotation K D)))
      (fun s g => { g with maps := s.maps, tracker := s.tracker, minFrequency := s.minFrequency }) :=
  ⟨fun _ _ => rfl, fun _ _ _ => rfl, fun _ => rfl⟩

private theorem part_median [LinearOrder K] :
    IsPart (fun g : TsState K D => (⟨g.maps, g.sums, g.counts⟩ : TsMedian K D (TsAnnotation K D)))
      (fun s g => { g with maps := s.maps, sums := s.sums, counts := s.counts }) :=
  ⟨fun _ _ => rfl, fun _ _ _ => rfl, fun _ => rfl⟩

/-- Training the three estimators one after the other. -/
private theorem yields_of [LinearOrder K] [TsNum D] (X : Xf (TsConfig K S) (TsIn K S) (TsIn K S))
    (parse : S → Except Err D) (text : D → S) (types : List UInt32) (strategy : TsStrategy) (suppress : Bool)
    (space : Nat) (maps : AnnotationMaps (TsAnnotation K D)) (batches : List (List (TsIn K S)))
    (hcol : 0 < maps.length) (hne : batches ≠ []) (hb : NoEmptyBatch batches)
    (hnew : strategy = .median → suppress = false → ∀ ty ∈ types, supportsMedian ty = true)
    (r : Except Err (TsConfig K S))
    (hr : r = match trainOnce (tsFrequencyHooks TsAnnotation.frequency)
        (batches.map (List.map fun x => (x.time, x.key))) (TsFrequency.new maps) with
      | (.error e, _) => .error e
      | (.ok (), e) =>
        match trainOnce (tsMedianHooks parse types TsAnnotation.medians) batches (TsMedian.new e.inner.maps) with
        | (.error e, _) => .error e
        | (.ok (), e) => tsImputerCreate text types strategy suppress space e.inner.maps) :
    TsYields X parse text types strategy suppress space maps batches r := by
  have hmaps : maps.isEmpty = false := by cases maps <;> simp_all
  have hnew' : ¬ (strategy = .median ∧ suppress = false ∧ types.any (fun ty => !supportsMedian ty) = true) := by
    rintro ⟨h1, h2, h3⟩
    obtain ⟨ty, h4, h5⟩ := List.any_eq_true.1 h3
    rw [hnew h1 h2 ty h4] at h5
    cases h5
  refine ⟨_, by
    unfold newTsImputer
    rw [if_neg (by simp [hmaps]), if_neg hnew'], ?_⟩
  obtain ⟨N, out, h1, h2⟩ := C13_sequential_partial X
    [tsFrequencyStage, tsMedianStage parse types, tsImputerStage text types strategy suppress space]
    (by
      intro s hs g t g' hc
      simp only [List.dropLast, List.mem_cons, List.not_mem_nil, or_false] at hs
      rcases hs with rfl | rfl <;> cases hc)
    (by simp)
    (by
      intro s hs
      simp only [List.mem_cons, List.not_mem_nil, or_false] at hs
      rcases hs with rfl | rfl | rfl
      · refine onePass_part _ _ (fun items s => ?_) (fun s => by simp [tsFrequencyHooks])
        simp only [tsFrequencyHooks]
        rcases TsFrequency.run items s with ⟨_ | _, _⟩ <;> simp
      · refine onePass_part _ _ (fun items s => ?_) (fun s => by simp [tsMedianHooks])
        simp only [tsMedianHooks]
        rcases TsMedian.run parse types items s with ⟨_ | _, _⟩ <;> simp
      · exact ⟨by simp [tsImputerStage], by simp [tsImputerStage]⟩)
    batches hne hb ⟨maps, fun _ => none, durationMax, .empty, .empty⟩
  refine ⟨N, fun fuel hf => ⟨out.2, ?_⟩⟩
  rw [h1 fuel hf]
  have h3 : out.1 = (sequential X batches [] [tsFrequencyStage, tsMedianStage parse types,
      tsImputerStage text types strategy suppress space]
      (⟨maps, fun _ => none, durationMax, .empty, .empty⟩ : TsState K D)).1 := by rw [← h2]
  have h4 : out = (out.1, out.2) := rfl
  rw [h4, h3, hr]
  congr 2
  obtain ⟨a1, a2⟩ := trainStage_part (part_frequency (K := K) (D := D)) (fun x : TsIn K S => (x.time, x.key))
    (tsFrequencyHooks TsAnnotation.frequency) X 0 batches hb ⟨maps, fun _ => none, durationMax, .empty, .empty⟩
  simp only [sequential]
  rcases hA : trainStage X [] batches tsFrequencyStage
    (Est.new (⟨maps, fun _ => none, durationMax, .empty, .empty⟩ : TsState K D)) with ⟨ra, ea⟩
  rw [show trainStage X (List.replicate 0 none) batches
      (partStage (fun g : TsState K D => (⟨g.maps, g.tracker, g.minFrequency⟩ : TsFrequency K (TsAnnotation K D)))
      (fun s g => { g with maps := s.maps, tracker := s.tracker, minFrequency := s.minFrequency })
      (fun x : TsIn K S => (x.time, x.key)) (tsFrequencyHooks TsAnnotation.frequency))
    (Est.new (⟨maps, fun _ => none, durationMax, .empty, .empty⟩ : TsState K D)) = (ra, ea) from hA] at a1 a2
  simp only at a1 a2
  have hn : Est.new (⟨maps, fun _ => none, durationMax⟩ : TsFrequency K (TsAnnotation K D)) = TsFrequency.new maps :=
    rfl
  rw [hn] at a1 a2
  rcases hB : trainOnce (tsFrequencyHooks TsAnnotation.frequency)
        (batches.map (List.map fun x : TsIn K S => (x.time, x.key))) (TsFrequency.new maps) with ⟨_ | u, eb⟩
  · rw [hB] at a1
    subst a1
    rfl
  cases u
  rw [hB] at a1 a2
  subst a1
  simp only [Except.map, List.nil_append]
  simp only at a2
  obtain ⟨b1, b2⟩ := trainStage_part (part_median (K := K) (D := D)) (fun x : TsIn K S => x)
    (tsMedianHooks parse types TsAnnotation.medians) X 1 batches hb ea.inner
  rcases hC : trainStage X [none] batches (tsMedianStage parse types) (Est.new ea.inner) with ⟨rc, ec⟩
  rw [show trainStage X (List.replicate 1 none) batches
      (partStage (fun g : TsState K D => (⟨g.maps, g.sums, g.counts⟩ : TsMedian K D (TsAnnotation K D)))
      (fun s g => { g with maps := s.maps, sums := s.sums, counts := s.counts })
      (fun x : TsIn K S => x) (tsMedianHooks parse types TsAnnotation.medians))
    (Est.new ea.inner) = (rc, ec) from hC] at b1 b2
  have hid : batches.map (List.map fun x : TsIn K S => x) = batches := by
    have : (List.map fun x : TsIn K S => x) = id := by funext l; simp
    rw [this, List.map_id]
  have hn2 : Est.new (⟨ea.inner.maps, ea.inner.sums, ea.inner.counts⟩ : TsMedian K D (TsAnnotation K D))
      = TsMedian.new eb.inner.maps := by rw [a2]; rfl
  rw [hid, hn2] at b1 b2
  rcases hD : trainOnce (tsMedianHooks parse types TsAnnotation.medians) batches
    (TsMedian.new eb.inner.maps : Est (TsMedian K D (TsAnnotation K D))) with ⟨_ | u, ed⟩
  · rw [hD] at b1
    simp only at b1
    subst b1
    rfl
  cases u
  rw [hD] at b1 b2
  simp only at b1 b2
  subst b1
  simp only [Except.map]
  have ho : ∀ (h : Hooks (TsState K D) (TsIn K S) (TsConfig K S)),
      offerVia X [none, none] h batches ⟨.finished, false, ec.inner⟩ = (.ok (), ⟨.finished, false, ec.inner⟩) := by
    intro h; cases batches <;> simp [offerVia]
  have hmaps' : ec.inner.maps = ed.inner.maps := by rw [b2]
  simp only [List.cons_append, List.nil_append, trainStage, Op.andThen, tsImputerStage, Est.beginTraining, Est.new,
    ne_eq, not_true_eq_false, if_false, ho, Est.onDataCompleted, Est.completeTraining, stageTransformer,
    Est.createTransformer]
  simp only [reduceCtorEq, not_false_eq_true, not_true_eq_false, and_false, if_false, if_true, Bool.false_eq_true,
    hmaps']
  rcases tsImputerCreate text types strategy suppress space ed.inner.maps with e | t
  · rfl
  · rfl

private theorem find?_mapValues [LinearOrder K] {A B : Type} (f : A → B) (m : OMap K A) (k : K) :
    (m.mapValues f).find? k = (m.find? k).map f := by
  simp only [OMap.find?, OMap.mapValues]
  induction m.entries with
  | nil => rfl
  | cons e l ih =>
    simp only [List.map_cons, List.find?_cons]
    by_cases he : e.1 = k
    · subst he; simp
    · have : (e.1 == k) = false := by simpa using he
      simp only [this]
      exact ih

private theorem flatten_map {A B : Type} (f : A → B) (l : List (List A)) :
    (l.map (List.map f)).flatten = l.flatten.map f := List.map_flatten.symm

/-- **C63.**  Constructing the time series imputer and training it on any batches of readable rows, keys arbitrarily
interleaved: if the rows are trainable, the transformer has as frequency the smallest distance of consecutive rows of one
key, and for every key and column of a floating point type the mean of the values seen; otherwise training ends with a
runtime error.  This holds for every strategy: also for the forward and backward strategies training fails if a floating
point column of a key has no value. -/
theorem C63_training [LinearOrder K] [TsNum D] (X : Xf (TsConfig K S) (TsIn K S) (TsIn K S))
    (parse : S → Except Err D) (val : S → D) (text : D → S) (types : List UInt32) (strategy : TsStrategy)
    (suppress : Bool) (space : Nat) (maps : AnnotationMaps (TsAnnotation K D)) (batches : List (List (TsIn K S)))
    (hcol : 0 < maps.length) (hne : batches ≠ []) (hb : NoEmptyBatch batches)
    (hf : getAnnotation (fun _ => true) maps 0 "TimeSeriesFrequencyEstimator" = .ok none)
    (hm : getAnnotation (fun _ => true) maps 0 "TimeSeriesMedianEstimator" = .ok none)
    (hnew : strategy = .median → suppress = false → ∀ ty ∈ types, supportsMedian ty = true)
    (hr : ReadableRows parse val types batches.flatten) :
    (Trainable val types batches.flatten →
      ∃ c, TrainedOn val text types batches.flatten c ∧ c.strategy = strategy ∧ c.suppress = suppress ∧
        c.space = space ∧ TsYields X parse text types strategy suppress space maps batches (.ok c)) ∧
    (¬ Trainable val types batches.flatten →
      TsYields X parse text types strategy suppress space maps batches (.error .runtimeError)) := by
  have hY := yields_of X parse text types strategy suppress space maps batches hcol hne hb hnew
  have hb' : NoEmptyBatch (batches.map (List.map fun x : TsIn K S => (x.time, x.key))) := by
    intro b hb2
    obtain ⟨c, hc, rfl⟩ := List.mem_map.1 hb2
    exact fun h => hb c hc (List.map_eq_nil_iff.1 h)
  have hspan : ∀ a ∈ batches.flatten.map (fun x : TsIn K S => (x.time, x.key)),
      ∀ b ∈ batches.flatten.map (fun x : TsIn K S => (x.time, x.key)), b.1 - a.1 < durationMax := by
    intro a ha b hb2
    obtain ⟨x, hx, rfl⟩ := List.mem_map.1 ha
    obtain ⟨y, hy, rfl⟩ := List.mem_map.1 hb2
    exact hr.span x hx y hy
  obtain ⟨q1, q2⟩ := C25_time_series_partial (K := K) TsAnnotation.frequency (fun _ : TsAnnotation K D => true)
    (fun _ => rfl) (batches.map (List.map fun x => (x.time, x.key))) hb' maps hcol hf
    (by rw [flatten_map]; exact hspan)
  rw [flatten_map] at q1 q2
  rcases hA : trainOnce (tsFrequencyHooks TsAnnotation.frequency)
      (batches.map (List.map fun x : TsIn K S => (x.time, x.key))) (TsFrequency.new maps) with ⟨ra, ea⟩
  rw [hA] at q1 q2
  simp only at q1 q2
  by_cases hinc : ∀ k, (timesOfKey k batches.flatten).Pairwise (· < ·)
  swap
  · have hbad : ∃ k, ¬ (timesOfKey k batches.flatten).Pairwise (· < ·) := by
      simpa using hinc
    refine ⟨fun h => absurd h.increasing hinc, fun _ => hY _ ?_⟩
    rw [hA, (q2 hbad).1]
  obtain ⟨rfl, f, q3, q4, q5, q6⟩ := q1 hinc
  have hlen : 0 < ea.inner.maps.length := by
    rw [q6, (addAnnotation_ok maps _ 0 _ hcol).2]
    exact hcol
  obtain ⟨m1, m2⟩ := median_trained parse val types TsAnnotation.medians batches hb ea.inner.maps hlen hr
  by_cases hv : ∀ x ∈ batches.flatten, ∀ i, i < x.cells.length → Averaged types i →
      keyValues val x.key i batches.flatten ≠ []
  swap
  · refine ⟨fun h => absurd h.values hv, fun _ => hY _ ?_⟩
    have hbad : ∃ x ∈ batches.flatten, ∃ i, i < x.cells.length ∧ Averaged types i ∧
        keyValues val x.key i batches.flatten = [] := by
      apply Classical.byContradiction
      intro h
      apply hv
      intro x hx i hi ha he
      exact h ⟨x, hx, i, hi, ha, he⟩
    have := m2 hbad
    rw [hA]
    simp only
    rcases hB : trainOnce (tsMedianHooks parse types TsAnnotation.medians) batches (TsMedian.new ea.inner.maps)
      with ⟨rb, eb⟩
    rw [hB] at this
    simp only at this
    subst this
    rfl
  obtain ⟨m, eb, hB, hmaps, hfind⟩ := m1 hv
  have hfa : firstAnnotation eb.inner.maps "TimeSeriesFrequencyEstimator" = .ok (.frequency f) := by
    apply first_of_get
    rw [hmaps, getAnnotation_add_other _ _ _ _ _ _ (by decide)]
    exact q3
  have hma : firstAnnotation eb.inner.maps "TimeSeriesMedianEstimator" = .ok (.medians m) := by
    apply first_of_get
    rw [hmaps]
    refine getAnnotation_add_self _ _ _ _ _ rfl ?_
    rw [q6, getAnnotation_add_other _ _ _ _ _ _ (by decide)]
    exact hm
  have hcreate : tsImputerCreate text types strategy suppress space eb.inner.maps
      = TsConfig.check ⟨f, types, strategy, m.mapValues (List.map text), suppress, space⟩ := by
    unfold tsImputerCreate
    simp only [hfa, hma]
  have hY' : ∀ r, r = TsConfig.check ⟨f, types, strategy, m.mapValues (List.map text), suppress, space⟩ →
      TsYields X parse text types strategy suppress space maps batches r := by
    intro r h
    refine hY r ?_
    rw [hA]
    simp only
    rw [hB]
    simp only
    rw [hcreate]
    exact h
  have hgl : ∀ k, ∀ d ∈ gaps (timesOfKey k batches.flatten), d < durationMax := by
    intro k
    have hmem : ∀ a ∈ timesOfKey k batches.flatten, ∃ x ∈ batches.flatten, x.time = a := by
      intro a ha
      simp only [timesOfKey, timesOf, List.mem_filterMap, List.mem_map] at ha
      obtain ⟨r, ⟨x, hx, rfl⟩, h⟩ := ha
      split at h
      · cases h; exact ⟨x, hx, rfl⟩
      · cases h
    have : ∀ a ∈ timesOfKey k batches.flatten, ∀ b ∈ timesOfKey k batches.flatten, b - a < durationMax := by
      intro a ha b hb2
      obtain ⟨x, hx, rfl⟩ := hmem a ha
      obtain ⟨y, hy, rfl⟩ := hmem b hb2
      exact hr.span x hx y hy
    generalize timesOfKey k batches.flatten = l at this
    induction l with
    | nil => simp [gaps]
    | cons a l ih =>
      cases l with
      | nil => simp [gaps]
      | cons b l =>
        intro d hd
        simp only [gaps] at hd
        rcases List.mem_cons.1 hd with rfl | hd
        · exact this a (by simp) b (by simp)
        · exact ih (fun a ha b hb => this a (List.mem_cons_of_mem _ ha) b (List.mem_cons_of_mem _ hb)) d hd
  constructor
  · intro ht
    have hfm : ∃ k, f ∈ gaps (timesOfKey k batches.flatten) := by
      rcases q5 with h | ⟨_, h⟩
      · exact h
      · obtain ⟨k, hk⟩ := ht.twoRows
        exact absurd (h k) hk
    refine ⟨⟨f, types, strategy, m.mapValues (List.map text), suppress, space⟩,
      ⟨rfl, q4, hfm, fun k hk => ?_, fun x hx => ?_⟩, rfl, rfl, rfl, hY' _ ?_⟩
    · simp only [find?_mapValues, hfind]
      unfold means
      rw [show ofKey k batches.flatten = [] from ?_]
      · rfl
      · rw [ofKey, List.filter_eq_nil_iff]
        intro x hx
        simpa using hk x hx
    · simp only [find?_mapValues, hfind]
      unfold means
      rcases hk : ofKey x.key batches.flatten with _ | ⟨y, l⟩
      · exfalso
        have : x ∈ ofKey x.key batches.flatten := by simp only [ofKey, List.mem_filter, beq_self_eq_true, and_true]; exact hx
        rw [hk] at this
        simp at this
      · have hy : y ∈ ofKey x.key batches.flatten := by rw [hk]; simp
        simp only [ofKey, List.mem_filter, beq_iff_eq] at hy
        have hw := hr.widths y hy.1 x hx hy.2
        refine ⟨_, rfl, by simp [hw], fun i hi => ⟨fun ha => ?_, fun ha => ?_⟩⟩
        · rw [List.getElem?_map, List.getElem?_map, List.getElem?_range (by omega)]
          simp [(averaged_iff types i).1 ha]
        · rw [averaged_iff] at ha
          rw [List.getElem?_map, List.getElem?_map, List.getElem?_range (by omega)]
          simp [ha]
    · unfold TsConfig.check
      have h1 : types.length ≠ 0 := fun h => ht.columns (List.length_eq_zero_iff.1 h)
      obtain ⟨k, hk⟩ := hfm
      have h2 : f < 2 ^ 63 - 1 := hgl k f hk
      rw [if_neg h1, if_neg (by simp only; omega)]
  · intro ht
    refine hY' _ ?_
    unfold TsConfig.check
    by_cases h1 : types.length = 0
    · rw [if_pos h1]
    · rw [if_neg h1]
      have h2 : f = 2 ^ 63 - 1 := by
        rcases q5 with ⟨k, h⟩ | ⟨h, _⟩
        · exfalso
          apply ht
          exact ⟨fun h => h1 (by rw [h]; rfl), hinc, ⟨k, List.ne_nil_of_mem h⟩, hv⟩
        · exact h
      rw [if_pos h2]

/-- **C63 (constructor).**  The constructor throws exactly if there is no column of annotations, or if a column cannot be
averaged although the median strategy asks for it. -/
theorem C63_constructor [LinearOrder K] [TsNum D] (parse : S → Except Err D) (text : D → S) (types : List UInt32)
    (strategy : TsStrategy) (suppress : Bool) (space : Nat) (maps : AnnotationMaps (TsAnnotation K D)) :
    (maps = [] → newTsImputer parse text types strategy suppress space maps = .error .invalidArgument) ∧
    (maps ≠ [] → strategy = .median → suppress = false → (∃ i, i < types.length ∧ ¬ Averaged types i) →
      newTsImputer parse text types strategy suppress space maps = .error .runtimeError) ∧
    (maps ≠ [] → (strategy = .median → suppress = false → ∀ i, i < types.length → Averaged types i) →
      ∃ e, newTsImputer parse text types strategy suppress space maps = .ok e ∧ e.state = .pending) := by
  have hA : (∀ i, i < types.length → Averaged types i) ↔ types.any (fun ty => !supportsMedian ty) = false := by
    rw [List.any_eq_false]
    constructor
    · intro h ty hty
      obtain ⟨i, hi, rfl⟩ := List.mem_iff_getElem.1 hty
      obtain ⟨ty', h1, h2⟩ := h i hi
      rw [List.getElem?_eq_getElem hi] at h1
      cases h1
      simp [h2]
    · intro h i hi
      refine ⟨types[i], List.getElem?_eq_getElem hi, ?_⟩
      simpa using h types[i] (List.getElem_mem hi)
  refine ⟨fun h => by subst h; rfl, fun h h1 h2 ⟨i, hi, hn⟩ => ?_, fun h h1 => ?_⟩
  · have h3 : types.any (fun ty => !supportsMedian ty) = true := by
      rw [← Bool.not_eq_false, ← hA]
      exact fun h => hn (h i hi)
    unfold newTsImputer
    rw [if_neg (by simpa using h), if_pos ⟨h1, h2, h3⟩]
  · unfold newTsImputer
    rw [if_neg (by simpa using h), if_neg (fun ⟨h2, h3, h4⟩ => by rw [hA.1 (h1 h2 h3)] at h4; cases h4)]
    exact ⟨_, rfl, rfl⟩

private theorem gaps_pos (l : List Int) (h : l.Pairwise (· < ·)) : ∀ d ∈ gaps l, 0 < d := by
  induction l with
  | nil => simp [gaps]
  | cons a l ih =>
    cases l with
    | nil => simp [gaps]
    | cons b l =>
      rw [List.pairwise_cons] at h
      intro d hd
      simp only [gaps] at hd
      rcases List.mem_cons.1 hd with rfl | hd
      · have := h.1 b (by simp)
        omega
      · exact ih h.2 d hd

/-- **C63 (frequency).**  The frequency of a trained transformer is positive: the counterexample of C35 does not occur
with it. -/
theorem C63_frequency_pos [LinearOrder K] [TsNum D] {val : S → D} {text : D → S} {types : List UInt32}
    {rows : List (TsIn K S)} {c : TsConfig K S} (ht : Trainable val types rows) (h : TrainedOn val text types rows c) :
    0 < c.frequency := by
  obtain ⟨k, hk⟩ := h.frequency_mem
  exact gaps_pos _ (ht.increasing k) _ hk

/-- With exact numbers the average is the arithmetic mean. -/
theorem C63_mean [Field D] (l : List D) : average l = mean l := by
  have h : ∀ (l : List D) (a : D), l.foldl TsNum.plus a = a + l.sum := by
    intro l
    induction l with
    | nil => intro a; simp
    | cons b l ih =>
      intro a
      rw [List.foldl_cons, ih, List.sum_cons, ← add_assoc]
      rfl
  show l.foldl TsNum.plus (0 : D) / (((l.length : Int)) : D) = _
  rw [h, zero_add, mean, Int.cast_natCast]

/-- **C63 (end to end, median strategy).**  The trained transformer, run on any good series whose keys were trained (other
keys are allowed if errors are suppressed), replaces every null cell of a floating point column of a trained key by the
mean of the training values of that key and column; all other cells are kept. -/
theorem C63_imputes [LinearOrder K] [TsNum D] (val : S → D) (text : D → S) (types : List UInt32)
    (rows : List (TsIn K S)) (c : TsConfig K S) (h : TrainedOn val text types rows c) (hc : c.strategy = .median)
    (xs : List (TsIn K S)) (hg : GoodSeries c.frequency c.space xs)
    (hw : ∀ x ∈ xs, x.cells.length ≤ types.length)
    (hk : ∀ x ∈ xs, (∃ y ∈ rows, y.key = x.key ∧ y.cells.length = x.cells.length) ∨
      (c.suppress = true ∧ ∀ y ∈ rows, y.key ≠ x.key)) :
    ∃ outs, (tsImputerXf c).runAll .new xs = ⟨outs, none, .new⟩ ∧
      (originals outs = xs.map fun x => (x.time, x.key)) ∧
      ∀ k, Filled (fun col i v => ∃ e, (expand c.frequency (ofKey k xs))[i]? = some e ∧
          (e.cells[col]? = some (some v) ∨ (e.cells[col]? = some none ∧ Averaged types col ∧
            (∃ y ∈ rows, y.key = k) ∧ v = text (average (keyValues val k col rows)))))
        (expand c.frequency (ofKey k xs)) (outOfKey k outs) := by
  have hready : MedianReady c xs := by
    refine ⟨fun x hx => by rw [h.columns]; exact hw x hx, fun x hx m hm => ?_, fun x hx hn => ?_⟩
    · rcases hk x hx with ⟨y, hy, h1, h2⟩ | ⟨_, h1⟩
      · obtain ⟨l, h3, h4, _⟩ := h.known y hy
        rw [h1, hm] at h3
        cases h3
        omega
      · rw [h.unknown x.key h1] at hm
        cases hm
    · rcases hk x hx with ⟨y, hy, h1, h2⟩ | ⟨h1, _⟩
      · obtain ⟨l, h3, _⟩ := h.known y hy
        rw [h1, hn] at h3
        cases h3
      · exact h1
  obtain ⟨outs, t, _, h2, h3, h4⟩ := C36_median c hc xs hg hready
  refine ⟨outs, h2, h3, fun k => ?_⟩
  obtain ⟨f1, f2, f3⟩ := h4 k
  refine ⟨f1, f2, fun i col v r hr => (f3 i col v r hr).trans ?_⟩
  constructor
  · rintro ⟨e, he, h5 | ⟨h5, h6, m, h7, h8⟩⟩
    · exact ⟨e, he, .inl h5⟩
    · rw [h.columns] at h6
      refine ⟨e, he, .inr ⟨h5, h6, ?_⟩⟩
      have hex : ∃ y ∈ rows, y.key = k := by
        apply Classical.byContradiction
        intro hno
        rw [h.unknown k (fun x hx hxk => hno ⟨x, hx, hxk⟩)] at h7
        cases h7
      refine ⟨hex, ?_⟩
      obtain ⟨y, hy, rfl⟩ := hex
      obtain ⟨l, g1, g2, g3⟩ := h.known y hy
      rw [g1] at h7
      cases h7
      have hlt : col < y.cells.length := by
        have := (List.getElem?_eq_some_iff.1 h8).1
        omega
      have := (g3 col hlt).1 h6
      rw [h8] at this
      exact Option.some.inj this
  · rintro ⟨e, he, h5 | ⟨h5, h6, ⟨y, hy, rfl⟩, h8⟩⟩
    · exact ⟨e, he, .inl h5⟩
    · refine ⟨e, he, .inr ⟨h5, by rw [h.columns]; exact h6, ?_⟩⟩
      obtain ⟨l, g1, g2, g3⟩ := h.known y hy
      refine ⟨l, g1, ?_⟩
      -- the row is as wide as the training rows of the key
      have hmem := List.mem_of_getElem? he
      obtain ⟨x, hx, _, hxl⟩ := mem_expand hmem
      simp only [ofKey, List.mem_filter, beq_iff_eq] at hx
      obtain ⟨hx1, hx2⟩ := hx
      have hcol := (List.getElem?_eq_some_iff.1 h5).1
      have hwid : y.cells.length = x.cells.length := by
        rcases hk x hx1 with ⟨z, hz, z1, z2⟩ | ⟨_, hno⟩
        · obtain ⟨l', g1', g2', _⟩ := h.known z hz
          rw [z1, hx2, g1] at g1'
          cases g1'
          omega
        · exact absurd hx2.symm (hno y hy)
      rw [h8]
      exact (g3 col (by omega)).1 h6

/-! ### Texts that are not numbers -/

private theorem cells_append [LinearOrder K] [TsNum D] {α : Type} (parse : S → Except Err D) (types : List UInt32)
    (key : K) (as bs : List (Option S)) : ∀ (i : Nat) (s : TsMedian K D α),
    TsMedian.cells parse types key i (as ++ bs) s = match TsMedian.cells parse types key i as s with
      | (.ok (), s') => TsMedian.cells parse types key (i + as.length) bs s'
      | (.error e, s') => (.error e, s') := by
  induction as with
  | nil => intro i s; rfl
  | cons a as ih =>
    intro i s
    have hl : i + (a :: as).length = i + 1 + as.length := by simp; omega
    rw [hl]
    cases a with
    | none => exact ih (i + 1) s
    | some v =>
      simp only [List.cons_append, TsMedian.cells]
      rcases types[i]? with _ | ty
      · rfl
      · simp only
        split
        · exact ih (i + 1) s
        · rcases parse v with e | d
          · rfl
          · simp only
            rcases bump s.sums key i (TsNum.plus · d) with _ | m1
            · rfl
            · rcases bump s.counts key i (· + 1) with _ | m2
              · rfl
              · exact ih (i + 1) _

private theorem cells_bad [LinearOrder K] [TsNum D] {α : Type} (parse : S → Except Err D) (val : S → D)
    (types : List UInt32) (key : K) (cs : List (Option S))
    (hval : ∀ v, (∃ e, parse v = .error e) ∨ parse v = .ok (val v)) :
    ∀ (i : Nat) (s : TsMedian K D α) (L : List D) (N : List Int), s.sums.find? key = some L →
      s.counts.find? key = some N → i + cs.length ≤ L.length → i + cs.length ≤ N.length →
      i + cs.length ≤ types.length →
      (∃ (j : Nat) (v : S) (e : Err), cs[j]? = some (some v) ∧ avg types (i + j) = true ∧ parse v = .error e) →
      ∃ s' e, TsMedian.cells parse types key i cs s = (.error e, s') ∧ s'.maps = s.maps ∧
        ∃ (j : Nat) (v : S), cs[j]? = some (some v) ∧ avg types (i + j) = true ∧ parse v = .error e := by
  induction cs with
  | nil => rintro i s L N _ _ _ _ _ ⟨j, v, e, h, _⟩; simp at h
  | cons c cs ih =>
    intro i s L N h1 h2 h3 h4 h5 h6
    by_cases hc : ∃ v e, c = some v ∧ avg types i = true ∧ parse v = .error e
    · obtain ⟨v, e, rfl, ha, hp⟩ := hc
      refine ⟨s, e, ?_, rfl, 0, v, by simp, ha, hp⟩
      simp only [List.length_cons] at h5
      have hty : types[i]? = some (types[i]'(by omega)) := List.getElem?_eq_getElem _
      have havg : avg types i = supportsMedian (types[i]'(by omega)) := by
        simp [avg, List.getD_eq_getElem?_getD, hty]
      rw [TsMedian.cells]
      simp only [hty, ← havg, ha, Bool.true_eq_false, if_false, hp]
    · have hone := cells_ok parse val types key [c] i s L N h1 h2 (by simp at h3 ⊢; omega) (by simp at h4 ⊢; omega)
        (by simp at h5 ⊢; omega) (by
          intro j v hj ha
          cases j with
          | zero =>
            simp only [List.getElem?_cons_zero, Option.some.injEq] at hj
            rcases hval v with ⟨e, he⟩ | h
            · exact absurd ⟨v, e, hj, ha, he⟩ hc
            · exact h
          | succ j => simp at hj)
      obtain ⟨s1, e1, e2, e3, e4, e5⟩ := hone
      have happ := cells_append parse types key [c] cs i s
      rw [e1] at happ
      simp only [List.singleton_append, List.length_singleton] at happ
      obtain ⟨s', e, g1, g2, j, v, g3, g4, g5⟩ := ih (i + 1) s1 _ _ e4 e5
        (by simp at h3 ⊢; omega) (by simp at h4 ⊢; omega) (by simp at h5 ⊢; omega) (by
          obtain ⟨j, v, e, hj, ha, hp⟩ := h6
          cases j with
          | zero =>
            simp only [List.getElem?_cons_zero, Option.some.injEq] at hj
            exact absurd ⟨v, e, hj, ha, hp⟩ hc
          | succ j =>
            exact ⟨j, v, e, by simpa using hj, by rw [← ha]; congr 1; omega, hp⟩)
      refine ⟨s', e, happ.trans g1, g2.trans e2, j + 1, v, by simpa using g3, ?_, g5⟩
      rw [← g4]
      congr 1
      omega

private theorem run_bad [LinearOrder K] [TsNum D] {α : Type} (parse : S → Except Err D) (val : S → D)
    (types : List UInt32) (hval : ∀ v, (∃ e, parse v = .error e) ∨ parse v = .ok (val v)) (rows : List (TsIn K S)) :
    ∀ (pre : List (TsIn K S)) (s : TsMedian K D α),
    MedInv val types pre s → ReadableRows parse val types pre → WellFormedRows types (pre ++ rows) →
    (∃ x ∈ rows, ∃ (i : Nat) (v : S) (e : Err), x.cells[i]? = some (some v) ∧ Averaged types i ∧ parse v = .error e) →
    ∃ s' e, TsMedian.run parse types rows s = (.error e, s') ∧
      ∃ x ∈ rows, ∃ (i : Nat) (v : S), x.cells[i]? = some (some v) ∧ Averaged types i ∧ parse v = .error e := by
  induction rows with
  | nil => rintro pre s _ _ _ ⟨x, hx, _⟩; simp at hx
  | cons x xs ih =>
    intro pre s hi hpre hw hbad
    by_cases hx : ∃ (i : Nat) (v : S) (e : Err), x.cells[i]? = some (some v) ∧ Averaged types i ∧ parse v = .error e
    · -- the state in which the cells are read
      have hlen : ∀ {A : Type} (w : A → S → A) (z : A) l, rowOf w z types pre x.key = some l →
          l.length = x.cells.length := by
        intro A w z l hl
        unfold rowOf at hl
        rcases hk : ofKey x.key pre with _ | ⟨y, l'⟩
        · rw [hk] at hl; cases hl
        · have hy : y ∈ ofKey x.key pre := by rw [hk]; simp
          simp only [ofKey, List.mem_filter, beq_iff_eq] at hy
          rw [hk] at hl
          cases hl
          simp [hw.widths y (by simp [hy.1]) x (by simp) hy.2]
      have hboth : (rowOf (sumStep val) TsNum.zero types pre x.key = none ∧ rowOf countStep 0 types pre x.key = none) ∨
          ∃ l n, rowOf (sumStep val) TsNum.zero types pre x.key = some l ∧ rowOf countStep 0 types pre x.key = some n := by
        unfold rowOf
        rcases (ofKey x.key pre).head? with _ | y
        · exact .inl ⟨rfl, rfl⟩
        · exact .inr ⟨_, _, rfl, rfl⟩
      have hb : ∃ (j : Nat) (v : S) (e : Err), x.cells[j]? = some (some v) ∧ avg types (0 + j) = true ∧
          parse v = .error e := by
        obtain ⟨i, v, e, h1, h2, h3⟩ := hx
        exact ⟨i, v, e, h1, by rw [Nat.zero_add]; exact (averaged_iff types i).1 h2, h3⟩
      have hcol := hw.columns x (by simp)
      have hres : ∃ s' e, TsMedian.step parse types x s = (.error e, s') ∧
          ∃ (j : Nat) (v : S), x.cells[j]? = some (some v) ∧ avg types (0 + j) = true ∧ parse v = .error e := by
        unfold TsMedian.step
        rcases hboth with ⟨h1, h2⟩ | ⟨l, n, h1, h2⟩
        · have h1' := (hi.sums x.key).trans h1
          rw [h1']
          obtain ⟨s', e, g1, _, g3⟩ := cells_bad parse val types x.key x.cells hval 0
            { s with
              sums := s.sums.set x.key (List.replicate x.cells.length TsNum.zero)
              counts := s.counts.set x.key (List.replicate x.cells.length 0) } _ _ (OMap.find?_set_self _ _ _)
            (OMap.find?_set_self _ _ _) (by simp) (by simp) (by omega) hb
          exact ⟨s', e, g1, g3⟩
        · have h1' := (hi.sums x.key).trans h1
          have h2' := (hi.counts x.key).trans h2
          have := hlen _ _ l h1
          have := hlen _ _ n h2
          rw [h1']
          obtain ⟨s', e, g1, _, g3⟩ := cells_bad parse val types x.key x.cells hval 0 s _ _ h1' h2' (by omega)
            (by omega) (by omega) hb
          exact ⟨s', e, g1, g3⟩
      obtain ⟨s', e, g1, j, v, g2, g3, g4⟩ := hres
      refine ⟨s', e, ?_, x, by simp, j, v, g2, (averaged_iff types j).2 (by simpa using g3), g4⟩
      rw [TsMedian.run, g1]
    · have hread : ReadableRows parse val types (pre ++ [x]) := by
        refine ⟨⟨fun y hy => hw.columns y ?_, fun y hy z hz => hw.widths y ?_ z ?_,
          fun y hy z hz => hw.span y ?_ z ?_⟩, fun y hy i v h1 h2 => ?_⟩
        · simp at hy ⊢; tauto
        · simp at hy ⊢; tauto
        · simp at hz ⊢; tauto
        · simp at hy ⊢; tauto
        · simp at hz ⊢; tauto
        · rcases List.mem_append.1 hy with hy | hy
          · exact hpre.numbers y hy i v h1 h2
          · rw [List.mem_singleton] at hy
            subst hy
            rcases hval v with ⟨e, he⟩ | h
            · exact absurd ⟨i, v, e, h1, h2, he⟩ hx
            · exact h
      obtain ⟨s1, e1, e2, e3⟩ := step_ok parse val types pre x s hi hread
      obtain ⟨s', e, g1, y, hy, g2⟩ := ih (pre ++ [x]) s1 e3 hread (by simpa using hw) (by
        obtain ⟨y, hy, i, v, e, h1, h2, h3⟩ := hbad
        rcases List.mem_cons.1 hy with rfl | hy
        · exact absurd ⟨i, v, e, h1, h2, h3⟩ hx
        · exact ⟨y, hy, i, v, e, h1, h2, h3⟩)
      refine ⟨s', e, ?_, y, by simp [hy], g2⟩
      rw [TsMedian.run, e1]
      exact g1

/-- **C63 (texts that are not numbers).**  If the times of every key strictly increase and some non-null cell of a floating
point column cannot be converted to a number, training throws the exception of the conversion of such a cell. -/
theorem C63_not_a_number [LinearOrder K] [TsNum D] (X : Xf (TsConfig K S) (TsIn K S) (TsIn K S))
    (parse : S → Except Err D) (text : D → S) (types : List UInt32) (strategy : TsStrategy)
    (suppress : Bool) (space : Nat) (maps : AnnotationMaps (TsAnnotation K D)) (batches : List (List (TsIn K S)))
    (hcol : 0 < maps.length) (hne : batches ≠ []) (hb : NoEmptyBatch batches)
    (hf : getAnnotation (fun _ => true) maps 0 "TimeSeriesFrequencyEstimator" = .ok none)
    (hnew : strategy = .median → suppress = false → ∀ ty ∈ types, supportsMedian ty = true)
    (hw : WellFormedRows types batches.flatten) (hinc : ∀ k, (timesOfKey k batches.flatten).Pairwise (· < ·))
    (hbad : ∃ x ∈ batches.flatten, ∃ (i : Nat) (v : S) (e : Err),
      x.cells[i]? = some (some v) ∧ Averaged types i ∧ parse v = .error e) :
    ∃ x ∈ batches.flatten, ∃ (i : Nat) (v : S) (e : Err),
      x.cells[i]? = some (some v) ∧ Averaged types i ∧ parse v = .error e ∧
      TsYields X parse text types strategy suppress space maps batches (.error e) := by
  have hY := yields_of X parse text types strategy suppress space maps batches hcol hne hb hnew
  have hb' : NoEmptyBatch (batches.map (List.map fun x : TsIn K S => (x.time, x.key))) := by
    intro b hb2
    obtain ⟨c, hc, rfl⟩ := List.mem_map.1 hb2
    exact fun h => hb c hc (List.map_eq_nil_iff.1 h)
  have hspan : ∀ a ∈ batches.flatten.map (fun x : TsIn K S => (x.time, x.key)),
      ∀ b ∈ batches.flatten.map (fun x : TsIn K S => (x.time, x.key)), b.1 - a.1 < durationMax := by
    intro a ha b hb2
    obtain ⟨x, hx, rfl⟩ := List.mem_map.1 ha
    obtain ⟨y, hy, rfl⟩ := List.mem_map.1 hb2
    exact hw.span x hx y hy
  obtain ⟨q1, -⟩ := C25_time_series_partial (K := K) TsAnnotation.frequency (fun _ : TsAnnotation K D => true)
    (fun _ => rfl) (batches.map (List.map fun x => (x.time, x.key))) hb' maps hcol hf
    (by rw [flatten_map]; exact hspan)
  rw [flatten_map] at q1
  rcases hA : trainOnce (tsFrequencyHooks TsAnnotation.frequency)
      (batches.map (List.map fun x : TsIn K S => (x.time, x.key))) (TsFrequency.new maps) with ⟨ra, ea⟩
  rw [hA] at q1
  obtain ⟨h1, -⟩ := q1 hinc
  simp only at h1
  subst h1
  let val : S → D := fun v => match parse v with | .ok d => d | .error _ => TsNum.zero
  have hval : ∀ v, (∃ e, parse v = .error e) ∨ parse v = .ok (val v) := by
    intro v
    simp only [val]
    rcases parse v with e | d
    · exact .inl ⟨e, rfl⟩
    · exact .inr rfl
  have hi : MedInv val types [] (⟨ea.inner.maps, .empty, .empty⟩ : TsMedian K D (TsAnnotation K D)) :=
    ⟨fun k => rfl, fun k => rfl⟩
  obtain ⟨s', e, g1, x, hx, i, v, g2, g3, g4⟩ := run_bad parse val types hval batches.flatten [] _ hi
    ⟨⟨by simp, by simp, by simp⟩, by simp⟩ (by simpa using hw) hbad
  refine ⟨x, hx, i, v, e, g2, g3, g4, hY _ ?_⟩
  have hbegin : Est.beginTraining (tsMedianHooks parse types TsAnnotation.medians)
      (TsMedian.new ea.inner.maps : Est (TsMedian K D (TsAnnotation K D)))
      = (.ok (), ⟨.training, false, ⟨ea.inner.maps, .empty, .empty⟩⟩) := rfl
  have ho := offer_run' parse types TsAnnotation.medians batches hb
    (⟨ea.inner.maps, .empty, .empty⟩ : TsMedian K D (TsAnnotation K D))
  rw [g1] at ho
  rw [hA]
  simp only [trainOnce, hbegin, ho]

/-! ### Examples -/

/-- Rows of two keys, interleaved; a floating point column and a column of texts. -/
private def exRows : List (List (TsIn Bool ℚ)) :=
  [[⟨0, true, [some 1, none]⟩, ⟨3, false, [none, some 7]⟩], [⟨10, true, [some 2, some 5]⟩],
    [⟨8, false, [some 4, none]⟩, ⟨20, true, [some 9, none]⟩]]

private theorem exReadable : ReadableRows (fun q : ℚ => .ok q) id [12, 1] exRows.flatten :=
  ⟨⟨by decide, by decide, by decide⟩, fun _ _ _ _ _ _ => rfl⟩

private theorem exTrainable : Trainable id [12, 1] exRows.flatten := by
  refine ⟨by decide, by decide, ⟨true, by decide⟩, ?_⟩
  intro x hx i hi ha
  rw [averaged_iff] at ha
  have hi2 : i < 2 := by
    have := exReadable.columns x hx
    simp at this
    omega
  have : i = 0 := by
    rcases i with _ | _ | i
    · rfl
    · exact absurd ha (by decide)
    · omega
  subst this
  simp only [exRows, List.flatten_cons, List.flatten_nil, List.cons_append, List.nil_append, List.mem_cons,
    List.not_mem_nil, or_false] at hx
  rcases hx with rfl | rfl | rfl | rfl | rfl <;> decide

/-! Non-vacuity of C63_training: a trainable series is trained, with the forward strategy. -/
example (X : Xf (TsConfig Bool ℚ) (TsIn Bool ℚ) (TsIn Bool ℚ)) :
    ∃ c, TrainedOn (K := Bool) id id [12, 1] exRows.flatten c ∧
      TsYields X (fun q : ℚ => .ok q) id [12, 1] .forward false 9 [[]] exRows (.ok c) := by
  obtain ⟨c, h1, _, _, _, h2⟩ := (C63_training X (fun q : ℚ => .ok q) id id [12, 1] .forward false 9 [[]] exRows
    (by decide) (by decide) (by intro b hb; simp [exRows] at hb; rcases hb with rfl | rfl | rfl <;> simp)
    (by rfl) (by rfl) (by intro h; cases h) exReadable).1 exTrainable
  exact ⟨c, h1, h2⟩

/-! Without the value 4 of key `false`, training fails although the forward strategy does not need it. -/
example (X : Xf (TsConfig Bool ℚ) (TsIn Bool ℚ) (TsIn Bool ℚ)) :
    TsYields X (fun q : ℚ => .ok q) id [12, 1] .forward false 9 [[]]
      [[⟨0, true, [some 1, none]⟩, ⟨3, false, [none, some 7]⟩], [⟨10, true, [some 2, some 5]⟩]]
      (.error .runtimeError) := by
  refine (C63_training X (fun q : ℚ => .ok q) id id [12, 1] .forward false 9 [[]] _
    (by decide) (by decide) (by intro b hb; simp at hb; rcases hb with rfl | rfl <;> simp)
    (by rfl) (by rfl) (by intro h; cases h) ⟨⟨by decide, by decide, by decide⟩, fun _ _ _ _ _ _ => rfl⟩).2 ?_
  intro h
  exact h.values ⟨3, false, [none, some 7]⟩ (by decide) 0 (by decide) ((averaged_iff _ _).2 (by decide)) (by decide)

/-! Non-vacuity of C63_imputes: the transformer trained for the median strategy, on new rows of a known and (errors
suppressed) of no other key. -/
example (X : Xf (TsConfig Bool ℚ) (TsIn Bool ℚ) (TsIn Bool ℚ)) :
    ∃ c outs, TsYields X (fun q : ℚ => .ok q) id [12, 1] .median true 9 [[]] exRows (.ok c) ∧
      (tsImputerXf c).runAll .new [⟨30, true, [none, none]⟩, ⟨42, true, [some 3, none]⟩] = ⟨outs, none, .new⟩ := by
  obtain ⟨c, h1, h2, h3, h4, h5⟩ := (C63_training X (fun q : ℚ => .ok q) id id [12, 1] .median true 9 [[]] exRows
    (by decide) (by decide) (by intro b hb; simp [exRows] at hb; rcases hb with rfl | rfl | rfl <;> simp)
    (by rfl) (by rfl) (by intro _ h; cases h) exReadable).1 exTrainable
  have hfreq : c.frequency = 5 := by
    have h6 := h1.frequency_le false 5 (by decide)
    obtain ⟨k, hk⟩ := h1.frequency_mem
    cases k
    · have : gaps (timesOfKey false exRows.flatten) = [5] := by decide
      rw [this] at hk
      simpa using hk
    · have : gaps (timesOfKey true exRows.flatten) = [10, 10] := by decide
      rw [this] at hk
      simp at hk
      omega
  obtain ⟨outs, h7, _⟩ := C63_imputes id id [12, 1] exRows.flatten c h1 h2
    [⟨30, true, [none, none]⟩, ⟨42, true, [some 3, none]⟩]
    (by rw [hfreq, h4]; exact ⟨by decide, by decide, by decide, by decide, by decide⟩) (by decide)
    (by
      intro x hx
      refine .inl ⟨⟨0, true, [some 1, none]⟩, by decide, ?_⟩
      simp only [List.mem_cons, List.not_mem_nil, or_false] at hx
      rcases hx with rfl | rfl <;> decide)
  exact ⟨c, outs, h5, h7⟩

/-- A text that is not a number. -/
example (X : Xf (TsConfig Bool ℚ) (TsIn Bool ℚ) (TsIn Bool ℚ)) :
    ∃ e, TsYields X (fun q : ℚ => if q = 9 then .error .outOfRange else .ok q) id [12, 1] .median true 9 [[]] exRows
      (.error e) ∧ e = .outOfRange := by
  obtain ⟨x, _, i, v, e, _, _, h3, h4⟩ := C63_not_a_number X (fun q : ℚ => if q = 9 then .error .outOfRange else .ok q) id
    [12, 1] .median true 9 [[]] exRows
    (by decide) (by decide) (by intro b hb; simp [exRows] at hb; rcases hb with rfl | rfl | rfl <;> simp)
    (by rfl) (by intro _ h; cases h) exReadable.toWellFormedRows exTrainable.increasing
    ⟨⟨20, true, [some 9, none]⟩, by decide, 0, 9, .outOfRange, by decide, (averaged_iff _ _).2 (by decide), by simp⟩
  refine ⟨e, h4, ?_⟩
  by_cases h : v = 9
  · simp [h] at h3; exact h3.symm
  · simp [h] at h3

/-- **C63 (not the median).**  The values published under the name "median" are not medians: for the training values 1, 2
and 9 of a key and column, 4 is published. -/
theorem C63_median_false : ∃ rows : List (TsIn Bool ℚ), Trainable id [12, 1] rows ∧
    ReadableRows (fun q : ℚ => .ok q) id [12, 1] rows ∧
    ∀ c, TrainedOn (K := Bool) id id [12, 1] rows c → ∃ l m, c.medians.find? true = some l ∧ l[0]? = some m ∧
      ∀ interpolate mean', ¬ IsMedian interpolate mean' (keyValues id true 0 rows) m := by
  refine ⟨exRows.flatten, exTrainable, exReadable, fun c hc => ?_⟩
  obtain ⟨l, h1, h2, h3⟩ := hc.known ⟨0, true, [some 1, none]⟩ (by decide)
  refine ⟨l, _, h1, (h3 0 (by decide)).1 ((averaged_iff _ _).2 (by decide)), ?_⟩
  rintro ip mean' ⟨s, hs, hp, lower, upper, hl, hu, hm⟩
  have hv : keyValues id true 0 exRows.flatten = [1, 2, 9] := by decide
  have hs' : s = [1, 2, 9] := by
    rw [hv] at hs
    exact hs.eq_of_pairwise (fun a b _ _ h1 h2 => le_antisymm h1 h2) hp (by norm_num)
  subst hs'
  rw [hv] at hm
  simp at hl
  rw [← hl] at hm
  rw [C63_mean] at hm
  simp [mean] at hm
  norm_num at hm

end Feat
