import Verif.Proofs.Windows
import Mathlib.Algebra.Order.Field.Basic
import Mathlib.Algebra.Order.Ring.Rat
import Mathlib.Algebra.BigOperators.Group.List.Basic
import Mathlib.Data.Int.Cast.Lemmas
import Mathlib.Tactic.NormNum
/-
**C31** Rolling window aggregates.
-/
namespace Feat

variable {A B V F : Type}

/-! ### Specification -/

/-- The at most `W` inputs that end `h` rows before row `i`. -/
def windowBefore (xs : List A) (W h i : Nat) : List A := lastN W (xs.take (i + 1 - h))

/-- One output per input, in order.  Column `j` of the output for row `i` belongs to the horizon step `h = H - j`: it is
null when fewer than `minW` inputs end `h` rows before row `i`, and otherwise the aggregate of the at most `W`
latest of them. -/
structure RollingSpec (Agg : List A → B → Prop) (H W minW : Nat) (xs : List A) (outs : List (List (Option B))) :
    Prop where
  length : outs.length = xs.length
  rows : ∀ i < xs.length, ∃ row, outs[i]? = some row ∧ row.length = H ∧ ∀ j < H,
    (i + 1 < (H - j) + minW → row[j]? = some none) ∧
    ((H - j) + minW ≤ i + 1 → ∃ v, Agg (windowBefore xs W (H - j) i) v ∧ row[j]? = some (some v))

/-- `v` is the least value of the window. -/
def LeastOf [LE V] (l : List V) (v : V) : Prop := v ∈ l ∧ ∀ x ∈ l, v ≤ x

/-- `v` is the greatest value of the window. -/
def GreatestOf [LE V] (l : List V) (v : V) : Prop := v ∈ l ∧ ∀ x ∈ l, x ≤ v

/-- `v` is the arithmetic mean of the window. -/
def MeanOf [Field F] (l : List F) (v : F) : Prop := v = l.sum / l.length

/-! ### Running -/

private structure RAfter (H W minW : UInt32) (s : List A) (t : Rolling A) : Prop where
  horizon : t.params.horizon = H
  maxW : t.params.maxWindow = W
  minW : t.params.minWindow = minW
  max : t.buffer.max = H.toNat + W.toNat
  rep : Rep t.buffer (lastN (H.toNat + W.toNat) s)

private theorem cell_after (agg : List A → Except Err B) {H W minW : UInt32}
    (hsum : H.toNat + W.toNat < 2 ^ 32) (hmin : minW.toNat ≤ W.toNat) {s : List A} {t : Rolling A}
    (h : RAfter H W minW s t) (o : UInt32) (ho : o.toNat < H.toNat) :
    (s.length < (H.toNat - o.toNat) + minW.toNat → t.cell agg o = .ok none) ∧
    ((H.toNat - o.toNat) + minW.toNat ≤ s.length → ∀ v,
      agg (lastN W.toNat (s.take (s.length - (H.toNat - o.toNat)))) = .ok v → t.cell agg o = .ok (some v)) := by
  obtain ⟨h1, h2, h3, h4, h5⟩ := h
  have e1 : (H - o).toNat = H.toNat - o.toNat := by
    rw [UInt32.toNat_sub_of_le]; exact UInt32.le_iff_toNat_le.2 (by omega)
  have e2 : (H - o + minW).toNat = H.toNat - o.toNat + minW.toNat := by
    rw [UInt32.toNat_add, e1, Nat.mod_eq_of_lt (by omega)]
  have e3 : (W + H - o).toNat = W.toNat + H.toNat - o.toNat := by
    have : (W + H).toNat = W.toNat + H.toNat := by rw [UInt32.toNat_add, Nat.mod_eq_of_lt (by omega)]
    rw [UInt32.toNat_sub_of_le _ _ (UInt32.le_iff_toNat_le.2 (by omega)), this]
  have hlen := h5.len
  rw [lastN_length] at hlen
  unfold Rolling.cell
  simp only [h1, h2, h3, e1, e2, e3]
  refine ⟨?_, ?_⟩
  · intro hs
    rw [if_pos (by omega)]
  · intro hs v hv
    rw [if_neg (by omega)]
    have key : ∃ n off : Nat, n + off ≤ t.buffer.max ∧
        (if t.buffer.data.length < W.toNat + H.toNat - o.toNat then
          ((((t.buffer.data.length : Nat) : Int) - ((H.toNat - o.toNat : Nat) : Int)) % 2 ^ 64, (0 : Int))
        else ((W.toNat : Int),
          ((o.toNat : Int) - (((t.buffer.max : Nat) : Int) - ((t.buffer.data.length : Nat) : Int))) % 2 ^ 64))
          = ((n : Int), (off : Int)) ∧
        ((lastN (H.toNat + W.toNat) s).drop off).take n
          = lastN W.toNat (s.take (s.length - (H.toNat - o.toNat))) := by
      by_cases hb : t.buffer.data.length < W.toNat + H.toNat - o.toNat
      · rw [if_pos hb]
        refine ⟨t.buffer.data.length - (H.toNat - o.toNat), 0, by omega, ?_, ?_⟩
        · rw [Int.emod_eq_of_lt (by omega) (by omega)]
          congr 1; omega
        · rw [lastN_of_le (by omega), List.drop_zero, lastN_of_le (by simp; omega)]
          congr 1; omega
      · rw [if_neg hb]
        refine ⟨W.toNat, o.toNat + t.buffer.data.length - t.buffer.max, by omega, ?_, ?_⟩
        · rw [Int.emod_eq_of_lt (by omega) (by omega)]
          congr 1; omega
        · unfold lastN
          rw [List.drop_drop, List.take_drop, List.length_take]
          have ea : s.length - (H.toNat + W.toNat) + (o.toNat + t.buffer.data.length - t.buffer.max)
              = min (s.length - (H.toNat - o.toNat)) s.length - W.toNat := by omega
          rw [ea]
          congr 2
          omega
    obtain ⟨n, off, hno, hk1, hk2⟩ := key
    obtain ⟨r, hr1, hr2⟩ := range_walk h5 n off hno
    rw [hk1]
    simp only [Int.toNat_natCast, hr1, hr2, hk2, hv]

private theorem cells_after (agg : List A → Except Err B) {H W minW : UInt32}
    (hsum : H.toNat + W.toNat < 2 ^ 32) (hmin : minW.toNat ≤ W.toNat) {s : List A} {t : Rolling A}
    (h : RAfter H W minW s t) (os : List UInt32) (hos : ∀ o ∈ os, o.toNat < H.toNat)
    (hagg : ∀ o ∈ os, (H.toNat - o.toNat) + minW.toNat ≤ s.length →
      ∃ v, agg (lastN W.toNat (s.take (s.length - (H.toNat - o.toNat)))) = .ok v) :
    ∃ row, t.cells agg os = .ok row ∧ row.length = os.length ∧ ∀ (k : Nat) o, os[k]? = some o →
      (s.length < (H.toNat - o.toNat) + minW.toNat → row[k]? = some none) ∧
      ((H.toNat - o.toNat) + minW.toNat ≤ s.length → ∃ v,
        agg (lastN W.toNat (s.take (s.length - (H.toNat - o.toNat)))) = .ok v ∧ row[k]? = some (some v)) := by
  induction os with
  | nil => exact ⟨[], rfl, rfl, by simp⟩
  | cons o os ih =>
    obtain ⟨row, hr1, hr2, hr3⟩ := ih (fun o' h' => hos o' (List.mem_cons_of_mem _ h'))
      (fun o' h' => hagg o' (List.mem_cons_of_mem _ h'))
    obtain ⟨c1, c2⟩ := cell_after agg hsum hmin h o (hos o (by simp))
    unfold Rolling.cells
    by_cases hs : s.length < (H.toNat - o.toNat) + minW.toNat
    · refine ⟨none :: row, by simp only [c1 hs, hr1], by simp [hr2], ?_⟩
      intro k o' hk
      cases k with
      | zero =>
        simp only [List.getElem?_cons_zero, Option.some.injEq] at hk
        subst hk
        exact ⟨fun _ => rfl, fun h => absurd hs (by omega)⟩
      | succ k => exact hr3 k o' (by simpa using hk)
    · obtain ⟨v, hv⟩ := hagg o (by simp) (by omega)
      refine ⟨some v :: row, by simp only [c2 (by omega) v hv, hr1], by simp [hr2], ?_⟩
      intro k o' hk
      cases k with
      | zero =>
        simp only [List.getElem?_cons_zero, Option.some.injEq] at hk
        subst hk
        exact ⟨fun h => absurd h hs, fun _ => ⟨v, hv, rfl⟩⟩
      | succ k => exact hr3 k o' (by simpa using hk)

private theorem exec_after (agg : List A → Except Err B) {H W minW : UInt32}
    (hsum : H.toNat + W.toNat < 2 ^ 32) (hmin : minW.toNat ≤ W.toNat) {s : List A} {t : Rolling A}
    (h : RAfter H W minW s t) (x : A)
    (hagg : ∀ j < H.toNat, (H.toNat - j) + minW.toNat ≤ s.length + 1 →
      ∃ v, agg (windowBefore (s ++ [x]) W.toNat (H.toNat - j) s.length) = .ok v) :
    ∃ row t', RAfter H W minW (s ++ [x]) t' ∧ t.exec agg x = ⟨[row], none, t'⟩ ∧ row.length = H.toNat ∧
      ∀ j < H.toNat, (s.length + 1 < (H.toNat - j) + minW.toNat → row[j]? = some none) ∧
        ((H.toNat - j) + minW.toNat ≤ s.length + 1 → ∃ v,
          agg (windowBefore (s ++ [x]) W.toNat (H.toNat - j) s.length) = .ok v ∧ row[j]? = some (some v)) := by
  obtain ⟨h1, h2, h3, h4, h5⟩ := h
  have hr := rep_push h5 x
  rw [h4, lastN_append] at hr
  have hA : RAfter H W minW (s ++ [x]) ⟨t.params, t.buffer.push x⟩ := ⟨h1, h2, h3, by rw [push_max]; exact h4, hr⟩
  have hHlt : H.toNat < 2 ^ 32 := H.toNat_lt
  have hto : ∀ j < H.toNat, (UInt32.ofNat j).toNat = j := fun j hj => UInt32.toNat_ofNat_of_lt' (by
    show j < 2 ^ 32; omega)
  obtain ⟨row, hc1, hc2, hc3⟩ := cells_after agg hsum hmin hA ((List.range H.toNat).map UInt32.ofNat)
    (by
      intro o ho
      obtain ⟨j, hj, rfl⟩ := List.mem_map.1 ho
      rw [List.mem_range] at hj
      rw [hto j hj]; exact hj)
    (by
      intro o ho
      obtain ⟨j, hj, rfl⟩ := List.mem_map.1 ho
      rw [List.mem_range] at hj
      rw [hto j hj]
      intro hle
      have := hagg j hj (by simpa using hle)
      simpa [windowBefore] using this)
  refine ⟨row, _, hA, ?_, by simpa using hc2, ?_⟩
  · unfold Rolling.exec
    simp only [h1, hc1]
  · intro j hj
    have := hc3 j (UInt32.ofNat j) (by simp [hj])
    rw [hto j hj] at this
    simpa [windowBefore] using this

private theorem windowBefore_append (s zs : List A) (W h i : Nat) (hi : i < s.length) :
    windowBefore (s ++ zs) W h i = windowBefore s W h i := by
  unfold windowBefore
  rw [List.take_append_of_le_length (by omega)]

private theorem execAll_rolling (agg : List A → Except Err B) {H W minW : UInt32}
    (hsum : H.toNat + W.toNat < 2 ^ 32) (hmin : minW.toNat ≤ W.toNat) (xs : List A) :
    ∀ (s : List A) (t : Rolling A), RAfter H W minW s t →
      (∀ i, s.length ≤ i → i < s.length + xs.length → ∀ j < H.toNat, (H.toNat - j) + minW.toNat ≤ i + 1 →
        ∃ v, agg (windowBefore (s ++ xs) W.toNat (H.toNat - j) i) = .ok v) →
      ∃ outs t', RAfter H W minW (s ++ xs) t' ∧ (rollingXf agg).execAll t xs = ⟨outs, none, t'⟩ ∧
        outs.length = xs.length ∧
        ∀ i < xs.length, ∃ row, outs[i]? = some row ∧ row.length = H.toNat ∧ ∀ j < H.toNat,
          (s.length + i + 1 < (H.toNat - j) + minW.toNat → row[j]? = some none) ∧
          ((H.toNat - j) + minW.toNat ≤ s.length + i + 1 → ∃ v,
            agg (windowBefore (s ++ xs) W.toNat (H.toNat - j) (s.length + i)) = .ok v ∧
            row[j]? = some (some v)) := by
  induction xs with
  | nil => intro s t h _; exact ⟨[], t, by simpa using h, rfl, rfl, by simp⟩
  | cons x xs ih =>
    intro s t h hagg
    have happ : s ++ x :: xs = (s ++ [x]) ++ xs := by simp
    obtain ⟨row, t₁, h1, h2, h3, h4⟩ := exec_after agg hsum hmin h x (by
      intro j hj hle
      have := hagg s.length (le_refl _) (by simp) j hj hle
      rw [happ, windowBefore_append _ _ _ _ _ (by simp)] at this
      exact this)
    obtain ⟨outs, t₂, h5, h6, h7, h8⟩ := ih (s ++ [x]) t₁ h1 (by
      intro i hi1 hi2 j hj hle
      rw [← happ]
      simp at hi1 hi2
      exact hagg i (by omega) (by simp; omega) j hj hle)
    refine ⟨row :: outs, t₂, by rw [happ]; exact h5, ?_, by simp [h7], ?_⟩
    · unfold Xf.execAll
      have e1 : (rollingXf agg).exec t x = t.exec agg x := rfl
      rw [e1, h2]
      simp only [h6]
      rfl
    · intro i hi
      cases i with
      | zero =>
        refine ⟨row, rfl, h3, ?_⟩
        intro j hj
        have := h4 j hj
        rw [happ, Nat.add_zero, windowBefore_append (s ++ [x]) xs _ _ _ (by simp)]
        exact this
      | succ i =>
        obtain ⟨r, hr1, hr2, hr3⟩ := h8 i (by simp at hi; omega)
        refine ⟨r, by simpa using hr1, hr2, ?_⟩
        intro j hj
        have := hr3 j hj
        rw [happ, show s.length + (i + 1) = (s ++ [x]).length + i by simp; omega]
        exact this

/-- Rolling windows for an aggregate that succeeds on every window of the series. -/
theorem rolling_gen (agg : List A → Except Err B) (Agg : List A → B → Prop) (c : UInt8)
    (H W minW : UInt32) (hH : 0 < H.toNat) (hmin0 : 0 < minW.toNat) (hmin : minW.toNat ≤ W.toNat)
    (hsum : H.toNat + W.toNat < 2 ^ 32) :
    ∃ t : Rolling A, Rolling.new c H W minW = .ok t ∧ ∀ xs : List A,
      (∀ w, w ≠ [] → w.length ≤ W.toNat → w <:+: xs → ∃ v, agg w = .ok v ∧ Agg w v) →
      ∃ outs, (rollingXf agg).runAll t xs = ⟨outs, none, t⟩ ∧
        ((rollingXf agg).execAll t xs).outs = outs ∧ RollingSpec Agg H.toNat W.toNat minW.toNat xs outs := by
  have hcap : (H + W).toNat = H.toNat + W.toNat := by rw [UInt32.toNat_add, Nat.mod_eq_of_lt (by omega)]
  refine ⟨⟨⟨c, H, W, minW, H + W⟩, ⟨(H + W).toNat, 0, []⟩⟩, ?_, ?_⟩
  · unfold Rolling.new CBuf.new
    simp only [rollingWindow]
    rw [if_neg (by omega), if_neg (by omega), if_neg (by omega), if_neg (by omega), if_neg (by omega)]
    simp only
    rw [if_neg (by omega)]
  intro xs hagg
  have h0 : RAfter H W minW [] (⟨⟨c, H, W, minW, H + W⟩, ⟨(H + W).toNat, 0, []⟩⟩ : Rolling A) := by
    refine ⟨rfl, rfl, rfl, hcap, ?_⟩
    rw [lastN_of_le (Nat.zero_le _)]
    exact rep_clear (b := (⟨(H + W).toNat, 0, []⟩ : CBuf A)) (by show 0 < (H + W).toNat; omega)
  have hw : ∀ i < xs.length, ∀ j < H.toNat, (H.toNat - j) + minW.toNat ≤ i + 1 →
      ∃ v, agg (windowBefore xs W.toNat (H.toNat - j) i) = .ok v ∧
        Agg (windowBefore xs W.toNat (H.toNat - j) i) v := by
    intro i hi j hj hle
    apply hagg
    · intro he
      have := congrArg List.length he
      unfold windowBefore at this
      rw [lastN_length, List.length_take, List.length_nil] at this
      omega
    · unfold windowBefore; rw [lastN_length]; omega
    · unfold windowBefore lastN
      exact ((List.drop_suffix _ _).isInfix).trans (List.take_prefix _ _).isInfix
  obtain ⟨outs, t', h1, h2, h3, h4⟩ := execAll_rolling agg hsum hmin xs [] _ h0 (by
    intro i _ hi j hj hle
    simp at hi
    obtain ⟨v, hv, _⟩ := hw i hi j hj hle
    exact ⟨v, by simpa using hv⟩)
  refine ⟨outs, ?_, by rw [h2], ⟨h3, ?_⟩⟩
  · unfold Xf.runAll
    rw [h2]
    have ep : t'.params = ⟨c, H, W, minW, H + W⟩ := by
      have hp : ∀ (ys : List A) (t : Rolling A), ((rollingXf agg).execAll t ys).next.params = t.params := by
        intro ys
        induction ys with
        | nil => intro t; rfl
        | cons y ys ih =>
          intro t
          unfold Xf.execAll
          have e1 : (rollingXf agg).exec t y = t.exec agg y := rfl
          have e2 : (t.exec agg y).next.params = t.params := by
            unfold Rolling.exec
            simp only
            split <;> rfl
          rw [e1]
          rcases hE : t.exec agg y with ⟨o, _ | e, t₁⟩
          · rw [hE] at e2
            simp only
            rw [← e2]
            exact ih t₁
          · rw [hE] at e2
            exact e2
      have := hp xs ⟨⟨c, H, W, minW, H + W⟩, ⟨(H + W).toNat, 0, []⟩⟩
      rw [h2] at this
      exact this
    have ef : (rollingXf agg).flush t' = ⟨[], none, ⟨⟨c, H, W, minW, H + W⟩, ⟨(H + W).toNat, 0, []⟩⟩⟩ := by
      show (⟨[], none, ⟨t'.params, ⟨t'.buffer.max, 0, []⟩⟩⟩ : Run (Rolling A) (List (Option B))) = _
      rw [ep, h1.max, ← hcap]
    simp only [ef, List.append_nil]
  · intro i hi
    obtain ⟨row, hr1, hr2, hr3⟩ := h4 i hi
    refine ⟨row, hr1, hr2, ?_⟩
    intro j hj
    have hr := hr3 j hj
    simp only [List.length_nil, Nat.zero_add, List.nil_append] at hr
    refine ⟨hr.1, ?_⟩
    intro hle
    obtain ⟨v, hv1, hv2⟩ := hw i hi j hj hle
    obtain ⟨v', hv1', hv2'⟩ := hr.2 hle
    rw [hv1] at hv1'
    cases hv1'
    exact ⟨v, hv2, hv2'⟩

private theorem foldl_least [LinearOrder V] (l : List V) : ∀ m : V,
    let r := l.foldl (fun m x => if x < m then x else m) m
    (r = m ∨ r ∈ l) ∧ r ≤ m ∧ ∀ x ∈ l, r ≤ x := by
  induction l with
  | nil => intro m; simp
  | cons a l ih =>
    intro m
    simp only [List.foldl_cons]
    obtain ⟨h1, h2, h3⟩ := ih (if a < m then a else m)
    have h4 : (if a < m then a else m) ≤ a ∧ (if a < m then a else m) ≤ m := by
      split
      · next h => exact ⟨le_refl _, le_of_lt h⟩
      · next h => exact ⟨not_lt.1 h, le_refl _⟩
    refine ⟨?_, le_trans h2 h4.2, ?_⟩
    · rcases h1 with h1 | h1
      · rw [h1]; split <;> simp
      · exact .inr (List.mem_cons_of_mem _ h1)
    · intro x hx
      rcases List.mem_cons.1 hx with rfl | hx
      · exact le_trans h2 h4.1
      · exact h3 x hx

private theorem foldl_greatest [LinearOrder V] (l : List V) : ∀ m : V,
    let r := l.foldl (fun m x => if x > m then x else m) m
    (r = m ∨ r ∈ l) ∧ m ≤ r ∧ ∀ x ∈ l, x ≤ r := by
  induction l with
  | nil => intro m; simp
  | cons a l ih =>
    intro m
    simp only [List.foldl_cons]
    obtain ⟨h1, h2, h3⟩ := ih (if a > m then a else m)
    have h4 : a ≤ (if a > m then a else m) ∧ m ≤ (if a > m then a else m) := by
      split
      · next h => exact ⟨le_refl _, le_of_lt h⟩
      · next h => exact ⟨not_lt.1 h, le_refl _⟩
    refine ⟨?_, le_trans h4.2 h2, ?_⟩
    · rcases h1 with h1 | h1
      · rw [h1]; split <;> simp
      · exact .inr (List.mem_cons_of_mem _ h1)
    · intro x hx
      rcases List.mem_cons.1 hx with rfl | hx
      · exact le_trans h4.1 h2
      · exact h3 x hx

/-- **C31** Rolling minimum, for values not above `numeric_limits<T>::max()` (all finite values). -/
theorem C31_min [LinearOrder V] (largest : V) (c : UInt8) (H W minW : UInt32) (hH : 0 < H.toNat)
    (hmin0 : 0 < minW.toNat) (hmin : minW.toNat ≤ W.toNat) (hsum : H.toNat + W.toNat < 2 ^ 32) :
    ∃ t : Rolling V, Rolling.new c H W minW = .ok t ∧ ∀ xs : List V, (∀ x ∈ xs, x ≤ largest) →
      ∃ outs, (rollingXf (minCalc largest)).runAll t xs = ⟨outs, none, t⟩ ∧
        ((rollingXf (minCalc largest)).execAll t xs).outs = outs ∧
        RollingSpec LeastOf H.toNat W.toNat minW.toNat xs outs := by
  obtain ⟨t, h1, h2⟩ := rolling_gen (A := V) (minCalc largest) LeastOf c H W minW hH hmin0 hmin hsum
  refine ⟨t, h1, fun xs hxs => h2 xs ?_⟩
  intro w hw _ hin
  refine ⟨_, rfl, ?_⟩
  obtain ⟨f1, f2, f3⟩ := foldl_least w largest
  refine ⟨?_, f3⟩
  rcases f1 with f1 | f1
  · obtain ⟨a, w', rfl⟩ := List.exists_cons_of_ne_nil hw
    have ha : a = largest := le_antisymm (hxs a (hin.subset (by simp))) (f1 ▸ f3 a (by simp))
    rw [f1, ← ha]; simp
  · exact f1

/-- **C31** Rolling maximum, for values not below `numeric_limits<T>::min()`.  For integer types these are all
values; for floating point types only the positive normal values. -/
theorem C31_max_partial [LinearOrder V] (start : V) (c : UInt8) (H W minW : UInt32) (hH : 0 < H.toNat)
    (hmin0 : 0 < minW.toNat) (hmin : minW.toNat ≤ W.toNat) (hsum : H.toNat + W.toNat < 2 ^ 32) :
    ∃ t : Rolling V, Rolling.new c H W minW = .ok t ∧ ∀ xs : List V, (∀ x ∈ xs, start ≤ x) →
      ∃ outs, (rollingXf (maxCalc start)).runAll t xs = ⟨outs, none, t⟩ ∧
        ((rollingXf (maxCalc start)).execAll t xs).outs = outs ∧
        RollingSpec GreatestOf H.toNat W.toNat minW.toNat xs outs := by
  obtain ⟨t, h1, h2⟩ := rolling_gen (A := V) (maxCalc start) GreatestOf c H W minW hH hmin0 hmin hsum
  refine ⟨t, h1, fun xs hxs => h2 xs ?_⟩
  intro w hw _ hin
  refine ⟨_, rfl, ?_⟩
  obtain ⟨f1, f2, f3⟩ := foldl_greatest w start
  refine ⟨?_, f3⟩
  rcases f1 with f1 | f1
  · obtain ⟨a, w', rfl⟩ := List.exists_cons_of_ne_nil hw
    have ha : a = start := le_antisymm (f1 ▸ f3 a (by simp)) (hxs a (hin.subset (by simp)))
    rw [f1, ← ha]; simp
  · exact f1

/-- **C31** is false for the maximum of floating point values: a window of values below the smallest positive normal
value (in particular, of negative values) has that value as its "maximum", which is not in the window. -/
theorem C31_max_negative [LinearOrder V] (start : V) (l : List V) (hl : ∀ x ∈ l, x < start) :
    maxCalc start l = .ok start ∧ start ∉ l := by
  obtain ⟨f1, f2, f3⟩ := foldl_greatest l start
  refine ⟨?_, fun h => lt_irrefl _ (hl _ h)⟩
  unfold maxCalc
  congr 1
  rcases f1 with f1 | f1
  · exact f1
  · exact absurd (lt_of_lt_of_le (hl _ f1) f2) (lt_irrefl _)

private theorem exact_sumLoop [Field F] (l : List F) : ∀ s : F, sumLoop exactAdd l s = .ok (s + l.sum) := by
  induction l with
  | nil => intro s; simp [sumLoop]
  | cons a l ih =>
    intro s
    show sumLoop exactAdd l (s + a) = _
    rw [ih, List.sum_cons, add_assoc]

/-- **C31** Rolling mean in exact arithmetic. -/
theorem C31_mean_exact [Field F] (c : UInt8) (H W minW : UInt32) (hH : 0 < H.toNat)
    (hmin0 : 0 < minW.toNat) (hmin : minW.toNat ≤ W.toNat) (hsum : H.toNat + W.toNat < 2 ^ 32) :
    ∃ t : Rolling F, Rolling.new c H W minW = .ok t ∧ ∀ xs : List F,
      ∃ outs, (rollingXf (meanCalc exactAdd)).runAll t xs = ⟨outs, none, t⟩ ∧
        ((rollingXf (meanCalc exactAdd)).execAll t xs).outs = outs ∧
        RollingSpec (MeanOf (F := F)) H.toNat W.toNat minW.toNat xs outs := by
  obtain ⟨t, h1, h2⟩ := rolling_gen (A := F) (meanCalc exactAdd) MeanOf c H W minW hH hmin0 hmin hsum
  refine ⟨t, h1, fun xs => h2 xs ?_⟩
  intro w hw _ _
  refine ⟨_, ?_, rfl⟩
  unfold meanCalc sumCalc
  rw [if_neg (by simpa using hw)]
  have e0 : (exactAdd : AddKind F F).zero = 0 := rfl
  rw [exact_sumLoop, e0]
  simp [exactAdd]

/-- **C31** Rolling mean of integers, as long as every running sum within a window fits the type of the values. -/
theorem C31_mean_integers_partial (T : Type) [CInt T] [Field F] (c : UInt8) (H W minW : UInt32) (hH : 0 < H.toNat)
    (hmin0 : 0 < minW.toNat) (hmin : minW.toNat ≤ W.toNat) (hsum : H.toNat + W.toNat < 2 ^ 32) (h0 : CInt.lo T ≤ 0)
    (h0' : 0 ≤ CInt.hi T) :
    ∃ t : Rolling T, Rolling.new c H W minW = .ok t ∧ ∀ xs : List T,
      (∀ w, w.length ≤ W.toNat → w <:+: xs →
        CInt.lo T ≤ (w.map CInt.toInt).sum ∧ (w.map CInt.toInt).sum ≤ CInt.hi T) →
      ∃ outs, (rollingXf (meanCalc (intAdd (F := F) T))).runAll t xs = ⟨outs, none, t⟩ ∧
        ((rollingXf (meanCalc (intAdd (F := F) T))).execAll t xs).outs = outs ∧
        RollingSpec (fun w v => MeanOf (F := F) (w.map fun x => ((CInt.toInt x : Int) : F)) v)
          H.toNat W.toNat minW.toNat xs outs := by
  obtain ⟨t, h1, h2⟩ := rolling_gen (A := T) (meanCalc (intAdd (F := F) T))
    (fun w v => MeanOf (F := F) (w.map fun x => ((CInt.toInt x : Int) : F)) v) c H W minW hH hmin0 hmin hsum
  refine ⟨t, h1, fun xs hxs => h2 xs ?_⟩
  intro w hw hlen hin
  refine ⟨_, ?_, rfl⟩
  have hz : CInt.toInt (CInt.ofInt 0 : T) = 0 := CInt.toInt_ofInt 0 h0 h0'
  have hloop : ∀ (l p : List T) (s : T), p ++ l = w → CInt.toInt s = (p.map CInt.toInt).sum →
      ∃ r, sumLoop (intAdd (F := F) T) l s = .ok r ∧ CInt.toInt r = (w.map CInt.toInt).sum := by
    intro l
    induction l with
    | nil => intro p s hp hs; exact ⟨s, rfl, by rw [← hp]; simpa using hs⟩
    | cons a l ih =>
      intro p s hp hs
      have hp' : (p ++ [a]) ++ l = w := by rw [← hp]; simp
      have hpre : (p ++ [a]) <+: w := ⟨l, hp'⟩
      have hr := hxs (p ++ [a]) (le_trans hpre.length_le hlen) (hpre.isInfix.trans hin)
      have hsum' : CInt.toInt s + CInt.toInt a = ((p ++ [a]).map CInt.toInt).sum := by
        rw [hs]; simp
      obtain ⟨r, hr1, hr2⟩ := ih (p ++ [a]) (CInt.ofInt (CInt.toInt s + CInt.toInt a)) hp' (by
        rw [CInt.toInt_ofInt _ (by rw [hsum']; exact hr.1) (by rw [hsum']; exact hr.2), hsum'])
      refine ⟨r, ?_, hr2⟩
      unfold sumLoop
      have e1 : (intAdd (F := F) T).add s a = .ok (CInt.ofInt (CInt.toInt s + CInt.toInt a)) := by
        show CInt.arith _ = _
        unfold CInt.arith
        rw [if_neg (by rw [hsum']; rintro ⟨_, h⟩; exact h hr)]
      rw [e1]
      exact hr1
  obtain ⟨r, hr1, hr2⟩ := hloop w [] (CInt.ofInt 0) rfl (by rw [hz]; rfl)
  have hr := hxs w hlen hin
  unfold meanCalc sumCalc
  rw [if_neg (by simpa using hw)]
  have e0 : (intAdd (F := F) T).zero = CInt.ofInt 0 := rfl
  rw [e0, hr1]
  have e1 : (intAdd (F := F) T).add (CInt.ofInt 0) r = .ok r := by
    show CInt.arith _ = _
    unfold CInt.arith
    rw [hz, Int.zero_add, CInt.ofInt_toInt, if_neg (by rintro ⟨_, h⟩; exact h (CInt.range r))]
  simp only [e1]
  congr 1
  have e2 : (intAdd (F := F) T).toF r = ((CInt.toInt r : Int) : F) := rfl
  rw [e2, hr2, List.length_map]
  congr 1
  rw [← Function.comp_def (fun i : Int => (i : F)) CInt.toInt, ← List.map_map]
  generalize w.map CInt.toInt = l
  induction l with
  | nil => simp
  | cons a l ih => simp [ih]

/-- **C31** is false for the mean of integers when a sum leaves the type of the values: the mean of 100 and 100 as
`int8_t` is −28. -/
theorem C31_mean_int8 : meanCalc (intAdd (F := Rat) Int8) [100, 100] = .ok (-28) := by
  have h : sumCalc (intAdd (F := Rat) Int8) [100, 100] = .ok (-56) := rfl
  unfold meanCalc
  rw [h]
  have h2 : (intAdd (F := Rat) Int8).toF (-56) = -56 := by
    show ((CInt.toInt (-56 : Int8) : Int) : Rat) = -56
    have : CInt.toInt (-56 : Int8) = -56 := by decide
    rw [this]; norm_num
  simp only [h2]
  norm_num

/-- **C31** is false when horizon and window size do not add up to less than 2³², for instance for the window size
2³²−1 as "no limit": with horizon 1 the constructor throws, and with horizon 3 the second row reads outside of the
window (a violated assertion). -/
theorem C31_large_window :
    Rolling.new (A := Nat) 1 1 4294967295 1 = .error .invalidArgument ∧
    ∃ t : Rolling Nat, Rolling.new 1 3 4294967295 1 = .ok t ∧
      ((rollingXf (minCalc 1000)).execAll t [5, 6]).err = some .ub := by
  refine ⟨rfl, _, rfl, ?_⟩
  decide +kernel

/-! Non-vacuity: horizon 2, window 2, minimum 1, the series 5, 3, 8. -/
example : ∃ t : Rolling Nat, Rolling.new 1 2 2 1 = .ok t ∧
    ((rollingXf (minCalc 1000)).execAll t [5, 3, 8]).outs
      = [[none, none], [none, some 5], [some 5, some 3]] := by
  refine ⟨_, rfl, ?_⟩
  decide +kernel

example : ∃ t : Rolling Nat, Rolling.new 1 2 2 1 = .ok t ∧
    ∃ outs, (rollingXf (minCalc 1000)).runAll t [5, 3, 8] = ⟨outs, none, t⟩ ∧
      RollingSpec LeastOf 2 2 1 [5, 3, 8] outs := by
  obtain ⟨t, h, h'⟩ := C31_min (1000 : Nat) 1 2 2 1 (by decide) (by decide) (by decide) (by decide)
  obtain ⟨outs, h1, _, h2⟩ := h' [5, 3, 8] (by decide)
  exact ⟨t, h, outs, h1, h2⟩

end Feat
