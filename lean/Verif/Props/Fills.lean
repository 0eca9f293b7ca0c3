import Verif.Model.Fills
import Verif.Props.PipelineExec
import Verif.Spec.Series
import Mathlib.Data.List.Induction
/-
C32 forward fill, C33 backward fill.
-/
namespace Feat
variable {A : Type}

/-! ### C32 -/

private theorem forward_run (d : Option A) (xs : List (Option A)) :
    ∀ (pre : List (Option A)) (l : Option A), (d = none → l = none → xs.head? ≠ some none) →
    (∀ v, l = some v ↔ (∃ j, pre[j]? = some (some v) ∧ ∀ k, j < k → k < pre.length → pre[k]? = some none) ∨
      ((∀ k < pre.length, pre[k]? = some none) ∧ d = some v)) →
    ∃ outs l', forwardFillXf.execAll ⟨d, l⟩ xs = ⟨outs, none, ⟨d, l'⟩⟩ ∧ outs.length = xs.length ∧
      ∀ i < xs.length, ∃ v, outs[i]? = some v ∧ LatestValue d (pre ++ xs) (pre.length + i) v := by
  induction xs with
  | nil => intro pre l _ _; exact ⟨[], l, rfl, rfl, by simp⟩
  | cons x xs ih =>
    intro pre l hhead hl
    have hx : (pre ++ x :: xs)[pre.length]? = some x := by simp
    have happ : pre ++ x :: xs = (pre ++ [x]) ++ xs := by simp
    have hget : ∀ k, k < pre.length → (pre ++ x :: xs)[k]? = pre[k]? := fun k hk =>
      List.getElem?_append_left hk
    have key : ∃ v, (x = some v ∨ x = none ∧ l = some v) := by
      cases x with
      | some v => exact ⟨v, .inl rfl⟩
      | none =>
        cases hlv : l with
        | some v => exact ⟨v, .inr ⟨rfl, rfl⟩⟩
        | none =>
          cases hd : d with
          | none => exact absurd rfl (hhead hd hlv)
          | some w =>
            exfalso
            have hno : ∀ v, ¬ l = some v := by rw [hlv]; simp
            have hall : ∀ n, n ≤ pre.length → ∀ k, pre.length - n ≤ k → k < pre.length → pre[k]? = some none := by
              intro n
              induction n with
              | zero => intro _ k h1 h2; omega
              | succ n ihn =>
                intro hn k h1 h2
                by_cases hk : pre.length - n ≤ k
                · exact ihn (by omega) k hk h2
                · have hk' : k = pre.length - n - 1 := by omega
                  rcases hp : pre[k]? with _ | _ | v
                  · rw [List.getElem?_eq_none_iff] at hp; omega
                  · rfl
                  · exfalso
                    exact hno v ((hl v).2 (.inl ⟨k, hp, fun k' h3 h4 => ihn (by omega) k' (by omega) h4⟩))
            exact hno w ((hl w).2 (.inr ⟨fun k hk => hall pre.length (le_refl _) k (by omega) hk, hd⟩))
    obtain ⟨v, hv⟩ := key
    have hexec : forwardFillXf.exec ⟨d, l⟩ x = ⟨[v], none, ⟨d, some v⟩⟩ := by
      rcases hv with rfl | ⟨rfl, rfl⟩ <;> rfl
    have hlv : ∀ w, some v = some w ↔
        (∃ j, (pre ++ [x])[j]? = some (some w) ∧
          ∀ k, j < k → k < (pre ++ [x]).length → (pre ++ [x])[k]? = some none) ∨
        ((∀ k < (pre ++ [x]).length, (pre ++ [x])[k]? = some none) ∧ d = some w) := by
      have hgx : (pre ++ [x])[pre.length]? = some x := by simp
      have hg : ∀ k, k < pre.length → (pre ++ [x])[k]? = pre[k]? := fun k hk => List.getElem?_append_left hk
      intro w
      rw [show (pre ++ [x]).length = pre.length + 1 by simp]
      rcases hv with rfl | ⟨rfl, hlw⟩
      · constructor
        · rintro ⟨⟩
          exact .inl ⟨pre.length, hgx, fun k h1 h2 => by omega⟩
        · rintro (⟨j, hj, hk⟩ | ⟨hk, _⟩)
          · by_cases hjl : j = pre.length
            · subst hjl; rw [hgx] at hj; cases hj; rfl
            · exfalso
              have : j < pre.length + 1 := by
                have := List.getElem?_eq_some_iff.1 hj
                obtain ⟨h, _⟩ := this
                simpa using h
              have := hk pre.length (by omega) (by omega)
              rw [hgx] at this
              cases this
          · have := hk pre.length (by omega)
            rw [hgx] at this
            cases this
      · constructor
        · rintro ⟨⟩
          rcases (hl v).1 hlw with ⟨j, hj, hk⟩ | ⟨hk, hd⟩
          · have hjl : j < pre.length := (List.getElem?_eq_some_iff.1 hj).1
            refine .inl ⟨j, by rw [hg j hjl]; exact hj, fun k h1 h2 => ?_⟩
            by_cases h3 : k = pre.length
            · subst h3; exact hgx
            · rw [hg k (by omega)]; exact hk k h1 (by omega)
          · refine .inr ⟨fun k h2 => ?_, hd⟩
            by_cases h3 : k = pre.length
            · subst h3; exact hgx
            · rw [hg k (by omega)]; exact hk k (by omega)
        · intro h
          rw [← hlw]
          apply (hl w).2
          rcases h with ⟨j, hj, hk⟩ | ⟨hk, hd⟩
          · have hjl : j < pre.length := by
              have := (List.getElem?_eq_some_iff.1 hj).1
              simp only [List.length_append, List.length_singleton] at this
              rcases Nat.lt_succ_iff_lt_or_eq.1 this with h | h
              · exact h
              · subst h; rw [hgx] at hj; cases hj
            refine .inl ⟨j, by rw [← hg j hjl]; exact hj, fun k h1 h2 => ?_⟩
            rw [← hg k h2]; exact hk k h1 (by omega)
          · exact .inr ⟨fun k h2 => by rw [← hg k h2]; exact hk k (by omega), hd⟩
    obtain ⟨outs, l', h1, h2, h3⟩ := ih (pre ++ [x]) (some v) (by simp) hlv
    refine ⟨v :: outs, l', ?_, by simp [h2], ?_⟩
    · simp only [Xf.execAll, hexec, h1, List.singleton_append]
    · intro i hi
      cases i with
      | zero =>
        refine ⟨v, rfl, ?_⟩
        have h := (hlv v).1 rfl
        rw [show (pre ++ [x]).length = pre.length + 1 by simp] at h
        rw [happ]
        have hg2 : ∀ k, k < pre.length + 1 → ((pre ++ [x]) ++ xs)[k]? = (pre ++ [x])[k]? := fun k hk =>
          List.getElem?_append_left (by simpa using hk)
        rcases h with ⟨j, hj, hk⟩ | ⟨hk, hd⟩
        · have hjl := (List.getElem?_eq_some_iff.1 hj).1
          simp only [List.length_append, List.length_singleton] at hjl
          exact .inl ⟨j, by omega, by rw [hg2 j hjl]; exact hj, fun k h1 h2 => by
            rw [hg2 k (by omega)]; exact hk k h1 (by omega)⟩
        · exact .inr ⟨fun k h2 => by rw [hg2 k (by omega)]; exact hk k (by omega), hd⟩
      | succ i =>
        obtain ⟨w, hw1, hw2⟩ := h3 i (by simpa using hi)
        refine ⟨w, by simpa using hw1, ?_⟩
        rw [happ]
        rw [show (pre ++ [x]).length + i = pre.length + (i + 1) by simp; omega] at hw2
        exact hw2

/-- **C32** Forward fill of any series (however the outputs are flushed): if there is a default value or the series
does not begin with a null, there is no exception and exactly one output per row, the latest non-null value so far or
the default value.  Otherwise the first row throws and nothing is output. -/
theorem C32_forward_fill (default : Option A) (xs : List (Option A)) :
    (default ≠ none ∨ xs.head? ≠ some none →
      ∃ outs t, forwardFillXf.runAll (ForwardFill.new default) xs = ⟨outs, none, t⟩ ∧
        (forwardFillXf.execAll (ForwardFill.new default) xs).outs = outs ∧
        outs.length = xs.length ∧
        ∀ i < xs.length, ∃ v, outs[i]? = some v ∧ LatestValue default xs i v) ∧
    (default = none → xs.head? = some none →
      forwardFillXf.runAll (ForwardFill.new default) xs
        = ⟨[], some .runtimeError, ForwardFill.new default⟩) := by
  constructor
  · intro h
    obtain ⟨outs, l', h1, h2, h3⟩ := forward_run default xs [] default (by
      intro hd _
      rcases h with h | h
      · exact absurd hd h
      · exact h) (by
      intro v
      simp)
    refine ⟨outs, ⟨default, l'⟩, ?_, ?_, h2, ?_⟩
    · unfold ForwardFill.new Xf.runAll
      rw [h1]
      simp [forwardFillXf, noFlush]
    · unfold ForwardFill.new
      rw [h1]
    · intro i hi
      obtain ⟨v, h4, h5⟩ := h3 i hi
      refine ⟨v, h4, ?_⟩
      simpa using h5
  · intro hd hx
    subst hd
    rcases xs with _ | ⟨x, xs⟩
    · simp at hx
    · simp only [List.head?_cons, Option.some.injEq] at hx
      subst hx
      rfl

/-- **C32** A null before any value throws but changes nothing: the transformer stays usable, as if the row had not
been there. -/
theorem C32_throw_changes_nothing (t : ForwardFill A) (x : Option A)
    (h : (forwardFillXf.exec t x).err ≠ none) :
    (forwardFillXf.exec t x).outs = [] ∧ (forwardFillXf.exec t x).next = t := by
  cases x with
  | some v => exact absurd rfl h
  | none =>
    rcases t with ⟨d, _ | v⟩
    · exact ⟨rfl, rfl⟩
    · exact absurd rfl h

/-- The value is unique, so the outputs are determined. -/
theorem C32_unique (default : Option A) (xs : List (Option A)) (i : Nat) (v w : A)
    (hv : LatestValue default xs i v) (hw : LatestValue default xs i w) : v = w := by
  rcases hv with ⟨j, hj, h1, h2⟩ | ⟨h1, h2⟩ <;> rcases hw with ⟨j', hj', h1', h2'⟩ | ⟨h1', h2'⟩
  · rcases Nat.lt_trichotomy j j' with h | h | h
    · rw [h2 j' h hj'] at h1'; cases h1'
    · subst h; rw [h1] at h1'; cases h1'; rfl
    · rw [h2' j h hj] at h1; cases h1
  · rw [h1' j hj] at h1; cases h1
  · rw [h1 j' hj'] at h1'; cases h1'
  · rw [h2] at h2'; cases h2'; rfl

/-! Non-vacuity. -/
example : (forwardFillXf.runAll (ForwardFill.new (some 9)) [none, some 1, none, none, some 2, none]).outs
    = [9, 1, 1, 1, 2, 2] := by decide
example : (forwardFillXf.runAll (ForwardFill.new none) [some 1, none, none, some 2, none]).outs
    = [1, 1, 1, 2, 2] ∧ ([some 1, none, none, some 2, none] : List (Option Nat)).head? ≠ some none := by decide

/-! ### C33 -/

/-- No 2³²−1 consecutive nulls. -/
def NoHugeGap (xs : List (Option A)) : Prop := ¬ List.replicate (2 ^ 32 - 1) none <:+: xs

private theorem next_append (xs ys : List (Option A)) (i : Nat) (v : A) (hi : i < xs.length)
    (hlast : xs.getLast? ≠ some none) : NextValue none (xs ++ ys) i v ↔ NextValue none xs i v := by
  have hne : xs ≠ [] := by intro h; subst h; simp at hi
  obtain ⟨w, hw⟩ : ∃ w, xs[xs.length - 1]? = some (some w) := by
    rw [List.getLast?_eq_getElem?] at hlast
    rcases h : xs[xs.length - 1]? with _ | _ | w
    · rw [List.getElem?_eq_none_iff] at h; omega
    · exact absurd h hlast
    · exact ⟨w, rfl⟩
  simp only [NextValue, reduceCtorEq, and_false, or_false]
  have hg : ∀ k, k < xs.length → (xs ++ ys)[k]? = xs[k]? := fun k hk => List.getElem?_append_left hk
  constructor
  · rintro ⟨j, h1, h2, h3⟩
    have hj : j < xs.length := by
      apply Decidable.byContradiction
      intro hn
      have := h3 (xs.length - 1) (by omega) (by omega)
      rw [hg _ (by omega), hw] at this
      cases this
    exact ⟨j, h1, by rw [← hg j hj]; exact h2, fun k h4 h5 => by rw [← hg k (by omega)]; exact h3 k h4 h5⟩
  · rintro ⟨j, h1, h2, h3⟩
    have hj : j < xs.length := (List.getElem?_eq_some_iff.1 h2).1
    exact ⟨j, h1, by rw [hg j hj]; exact h2, fun k h4 h5 => by rw [hg k (by omega)]; exact h3 k h4 h5⟩

private theorem backward_run (d : Option A) (xs : List (Option A)) (hg : NoHugeGap xs) :
    ∃ ys p outs, xs = ys ++ List.replicate p none ∧ ys.getLast? ≠ some none ∧ p < 2 ^ 32 - 1 ∧
      backwardFillXf.execAll (BackwardFill.new d) xs = ⟨outs, none, ⟨d, p⟩⟩ ∧ outs.length = ys.length ∧
      ∀ i v, outs[i]? = some v ↔ NextValue none ys i v := by
  induction xs using List.reverseRecOn with
  | nil =>
    refine ⟨[], 0, [], rfl, by simp, by omega, rfl, rfl, ?_⟩
    intro i v
    simp [NextValue]
  | append_singleton xs x ih =>
    obtain ⟨ys, p, outs, hxs, hlast, hp, hrun, hlen, hv⟩ := ih (fun h => hg (h.trans (List.prefix_append _ _).isInfix))
    have happ := Xf.execAll_append (backwardFillXf (A := A)) (BackwardFill.new d) xs [x]
    rw [hrun] at happ
    simp only at happ
    cases x with
    | none =>
      have hp' : p + 1 < 2 ^ 32 - 1 := by
        apply Decidable.byContradiction
        intro hn
        apply hg
        have hpe : p + 1 = 2 ^ 32 - 1 := by omega
        rw [← hpe, hxs, List.append_assoc, ← List.replicate_succ']
        exact (List.suffix_append _ _).isInfix
      refine ⟨ys, p + 1, outs, ?_, hlast, hp', ?_, hlen, hv⟩
      · rw [hxs, List.append_assoc, ← List.replicate_succ']
      · rw [happ]
        simp only [Xf.execAll, backwardFillXf, BackwardFill.exec]
        rw [Nat.mod_eq_of_lt (by omega)]
        simp
    | some w =>
      refine ⟨xs ++ [some w], 0, outs ++ List.replicate (p + 1) w, by simp, by simp, by omega, ?_, ?_, ?_⟩
      · rw [happ]
        simp only [Xf.execAll, backwardFillXf, BackwardFill.exec]
        rw [Nat.mod_eq_of_lt (by omega)]
        simp
      · simp [hlen, hxs]
      · intro i v
        by_cases hi : i < ys.length
        · rw [List.getElem?_append_left (by omega), hv]
          have : xs ++ [some w] = ys ++ (List.replicate p none ++ [some w]) := by rw [hxs, List.append_assoc]
          rw [this, next_append ys _ i v hi hlast]
        · have hget : ∀ k, ys.length ≤ k → k < xs.length → (xs ++ [some w])[k]? = some none := by
            intro k h1 h2
            rw [List.getElem?_append_left h2, hxs, List.getElem?_append_right h1, List.getElem?_replicate,
              if_pos]
            rw [hxs] at h2
            simp at h2
            omega
          have hx : (xs ++ [some w])[xs.length]? = some (some w) := by simp
          have hxl : xs.length = ys.length + p := by rw [hxs]; simp
          rw [List.getElem?_append_right (by omega), List.getElem?_replicate, hlen]
          simp only [NextValue, reduceCtorEq, and_false, or_false]
          constructor
          · intro h
            split at h
            · cases h
              exact ⟨xs.length, by omega, hx, fun k h1 h2 => hget k (by omega) h2⟩
            · cases h
          · rintro ⟨j, h1, h2, h3⟩
            have hj : j < xs.length + 1 := by
              have := (List.getElem?_eq_some_iff.1 h2).1
              simpa using this
            have hjx : j = xs.length := by
              apply Decidable.byContradiction
              intro hn
              rw [hget j (by omega) (by omega)] at h2
              cases h2
            subst hjx
            rw [hx] at h2
            cases h2
            rw [if_pos (by omega)]

/-- **C33** (part: series with fewer than 2³²−1 nulls in a row; see `C33_overflow`) Backward fill of any series
followed by a flush: the outputs are, in order, the next non-null value or the default value for each row that has one.
The flush throws exactly if the series ends with a null and there is no default value; otherwise there is one output
per row.  Before the flush, exactly the rows whose next non-null value has been seen are output. -/
theorem C33_backward_fill_partial (default : Option A) (xs : List (Option A)) (hg : NoHugeGap xs) :
    ∃ outs t, (backwardFillXf.execAll (BackwardFill.new default) xs).err = none ∧
      (∀ i v, (backwardFillXf.execAll (BackwardFill.new default) xs).outs[i]? = some v
        ↔ NextValue none xs i v) ∧
      (default = none ∧ xs.getLast? = some none →
        backwardFillXf.runAll (BackwardFill.new default) xs = ⟨outs, some .runtimeError, t⟩) ∧
      (¬ (default = none ∧ xs.getLast? = some none) →
        backwardFillXf.runAll (BackwardFill.new default) xs = ⟨outs, none, BackwardFill.new default⟩ ∧
        outs.length = xs.length) ∧
      ∀ i v, outs[i]? = some v ↔ NextValue default xs i v := by
  obtain ⟨ys, p, outs, hxs, hlast, hp, hrun, hlen, hv⟩ := backward_run default xs hg
  have hnull : ∀ k, ys.length ≤ k → k < xs.length → xs[k]? = some none := by
    intro k h1 h2
    rw [hxs, List.getElem?_append_right h1, List.getElem?_replicate, if_pos]
    rw [hxs] at h2
    simp at h2
    omega
  have hxl : xs.length = ys.length + p := by rw [hxs]; simp
  have hnone : ∀ i v, outs[i]? = some v ↔ NextValue none xs i v := by
    intro i v
    by_cases hi : i < ys.length
    · rw [hv, hxs, next_append ys _ i v hi hlast]
    · rw [List.getElem?_eq_none (by omega)]
      simp only [reduceCtorEq, false_iff, NextValue, and_false, or_false]
      rintro ⟨j, h1, h2, h3⟩
      rw [hnull j (by omega) (List.getElem?_eq_some_iff.1 h2).1] at h2
      cases h2
  have hlastx : xs.getLast? = some none ↔ p ≠ 0 := by
    rw [List.getLast?_eq_getElem?]
    constructor
    · rintro h rfl
      rw [List.replicate_zero, List.append_nil] at hxs
      subst hxs
      rw [← List.getLast?_eq_getElem?] at h
      exact hlast h
    · intro h
      exact hnull _ (by omega) (by omega)
  have hdef : ∀ i v, NextValue default xs i v ↔ NextValue none xs i v ∨
      (ys.length ≤ i ∧ i < xs.length ∧ default = some v) := by
    intro i v
    simp only [NextValue, reduceCtorEq, and_false, or_false]
    constructor
    · rintro (h | ⟨h1, h2, h3⟩)
      · exact .inl h
      · refine .inr ⟨?_, h1, h3⟩
        apply Decidable.byContradiction
        intro hn
        rw [List.getLast?_eq_getElem?] at hlast
        have := h2 (ys.length - 1) (by omega) (by omega)
        rw [hxs, List.getElem?_append_left (by omega)] at this
        exact hlast this
    · rintro (h | ⟨h1, h2, h3⟩)
      · exact .inl h
      · exact .inr ⟨h2, fun k h4 h5 => hnull k (by omega) h5, h3⟩
  have hfl : backwardFillXf.runAll (BackwardFill.new default) xs
      = match backwardFillXf.flush ⟨default, p⟩ with
        | ⟨outs', e, t''⟩ => ⟨outs ++ outs', e, t''⟩ := by
    unfold Xf.runAll
    rw [hrun]
  by_cases hp0 : p = 0
  · refine ⟨outs, ⟨default, p⟩, by rw [hrun], by rw [hrun]; exact hnone, ?_, ?_, ?_⟩
    · rintro ⟨_, h⟩
      exact absurd hp0 (hlastx.1 h)
    · intro _
      refine ⟨?_, by omega⟩
      rw [hfl, hp0]
      simp [backwardFillXf, BackwardFill.flush, BackwardFill.new]
    · intro i v
      rw [hnone, hdef]
      constructor
      · exact .inl
      · rintro (h | ⟨h1, h2, _⟩)
        · exact h
        · omega
  · cases hd : default with
    | none =>
      subst hd
      refine ⟨outs, ⟨none, p⟩, by rw [hrun], by rw [hrun]; exact hnone, ?_, ?_, hnone⟩
      · rintro _
        rw [hfl]
        simp [backwardFillXf, BackwardFill.flush, hp0]
      · intro h
        exact absurd ⟨rfl, hlastx.2 hp0⟩ h
    | some w =>
      rw [hd] at hfl hrun hdef
      refine ⟨outs ++ List.replicate p w, ⟨some w, p⟩, by rw [hrun], by rw [hrun]; exact hnone, by simp, ?_, ?_⟩
      · intro _
        refine ⟨?_, by simp; omega⟩
        rw [hfl]
        simp [backwardFillXf, BackwardFill.flush, hp0, BackwardFill.new]
      · intro i v
        rw [hdef, ← hnone]
        by_cases hi : i < ys.length
        · rw [List.getElem?_append_left (by omega)]
          constructor
          · exact .inl
          · rintro (h | ⟨h1, _⟩)
            · exact h
            · omega
        · rw [List.getElem?_append_right (by omega), List.getElem?_replicate, List.getElem?_eq_none (by omega)]
          simp only [reduceCtorEq, false_or]
          constructor
          · intro h
            split at h
            · cases h
              exact ⟨by omega, by omega, rfl⟩
            · cases h
          · rintro ⟨h1, h2, h3⟩
            cases h3
            rw [if_pos (by omega)]

private theorem backward_nulls (d : Option A) (n : Nat) (hn : n < 2 ^ 32) :
    backwardFillXf.execAll (BackwardFill.new d) (List.replicate n none) = ⟨[], none, ⟨d, n⟩⟩ := by
  induction n with
  | zero => rfl
  | succ n ih =>
    rw [List.replicate_succ', Xf.execAll_append, ih (by omega)]
    simp only [Xf.execAll, backwardFillXf, BackwardFill.exec]
    rw [Nat.mod_eq_of_lt hn]
    simp

private theorem backward_overflow (d : Option A) (v : A) (n : Nat) (hn : n + 1 = 2 ^ 32) :
    (backwardFillXf.runAll (BackwardFill.new d) (List.replicate n none ++ [some v])).outs = [] ∧
    (backwardFillXf.runAll (BackwardFill.new d) (List.replicate n none ++ [some v])).err = none := by
  have h := backward_nulls d n (by omega)
  have hm : (n + 1) % 2 ^ 32 = 0 := by
    rw [hn]
    exact Nat.mod_self _
  unfold Xf.runAll
  rw [Xf.execAll_append, h]
  simp only [Xf.execAll, backwardFillXf, BackwardFill.exec]
  rw [hm]
  simp [BackwardFill.flush]

/-- **C33** fails for long gaps: 2³²−1 nulls followed by a value are silently dropped, the value included. -/
theorem C33_overflow (default : Option A) (v : A) (n : Nat) (hn : n = 2 ^ 32 - 1) :
    (backwardFillXf.runAll (BackwardFill.new default) (List.replicate n none ++ [some v])).outs = [] ∧
    (backwardFillXf.runAll (BackwardFill.new default) (List.replicate n none ++ [some v])).err = none :=
  backward_overflow default v n (by omega)

/-! Non-vacuity: a short series has no huge gap. -/
theorem noHugeGap_of_length (xs : List (Option A)) (h : xs.length < 2 ^ 32 - 1) : NoHugeGap xs := by
  intro hi
  have := hi.length_le
  rw [List.length_replicate] at this
  omega

example : (backwardFillXf.runAll (BackwardFill.new (some 9)) [none, none, some 1, some 2, none, some 3, none]).outs
    = [1, 1, 1, 2, 3, 3, 9] := by decide
example : NoHugeGap ([none, none, some 1, some 2, none, some 3, none] : List (Option Nat)) :=
  noHugeGap_of_length _ (by simp)

end Feat
