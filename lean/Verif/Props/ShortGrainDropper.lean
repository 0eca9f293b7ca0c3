import Verif.Model.ShortGrainDropper
import Verif.Spec.Training
import Verif.Props.PipelineExec
import Batteries.Data.List.Perm
/-
C39: the short grain dropper.
-/
namespace Feat
variable {K : Type}

private theorem countGrain_find [DecidableEq K] (m : UMap K UInt32) (k j : K) :
    (countGrain m k).find? j = if j = k then some ((m.find? k).getD 0 + 1) else m.find? j := by
  unfold countGrain
  rcases hf : m.find? k with _ | v
  · simp only [UMap.find?_emplace]
    by_cases h : j = k
    · subst h; simp [hf]
    · simp only [h, if_false]
      rcases m.find? j <;> rfl
  · simp only [UMap.find?_update]
    by_cases h : j = k
    · subst h; simp [hf]
    · simp [h]

private theorem fold_find [DecidableEq K] (xs : List K) (m : UMap K UInt32) (k : K) :
    (((xs.foldl countGrain m).find? k).getD 0).toNat = (((m.find? k).getD 0).toNat + xs.count k) % 2 ^ 32 := by
  induction xs generalizing m with
  | nil =>
    simp only [List.foldl_nil, List.count_nil, Nat.add_zero]
    rw [Nat.mod_eq_of_lt (UInt32.toNat_lt _)]
  | cons x xs ih =>
    rw [List.foldl_cons, ih, countGrain_find, List.count_cons]
    by_cases h : k = x
    · subst h
      simp only [if_true, Option.getD_some, beq_self_eq_true, UInt32.toNat_add]
      simp only [UInt32.reduceToNat]
      omega
    · have : (x == k) = false := by simpa using fun hh : x = k => h hh.symm
      simp [h, this]

private theorem foldl_keep [DecidableEq K] (minPoints : UInt32) (l : List (K × UInt32)) (s : USet K) (k : K) :
    k ∈ (l.foldl (fun s e => if e.2 ≥ minPoints then s.emplace e.1 else s) s).elems ↔
      k ∈ s.elems ∨ ∃ v, (k, v) ∈ l ∧ minPoints ≤ v := by
  induction l generalizing s with
  | nil => simp
  | cons e l ih =>
    obtain ⟨k', v'⟩ := e
    rw [List.foldl_cons, ih]
    have hem : ∀ a, a ∈ (s.emplace k').elems ↔ a ∈ s.elems ∨ a = k' := by
      intro a
      unfold USet.emplace
      split
      · rename_i h
        constructor
        · exact .inl
        · rintro (h1 | rfl)
          · exact h1
          · exact h
      · simp
    by_cases hv : v' ≥ minPoints
    · simp only [hv, if_true, hem]
      constructor
      · rintro ((h | rfl) | ⟨v, h1, h2⟩)
        · exact .inl h
        · exact .inr ⟨v', by simp, hv⟩
        · exact .inr ⟨v, by simp [h1], h2⟩
      · rintro (h | ⟨v, h1, h2⟩)
        · exact .inl (.inl h)
        · rcases List.mem_cons.1 h1 with h1 | h1
          · cases h1; exact .inl (.inr rfl)
          · exact .inr ⟨v, h1, h2⟩
    · simp only [hv, if_false]
      constructor
      · rintro (h | ⟨v, h1, h2⟩)
        · exact .inl h
        · exact .inr ⟨v, by simp [h1], h2⟩
      · rintro (h | ⟨v, h1, h2⟩)
        · exact .inl h
        · rcases List.mem_cons.1 h1 with h1 | h1
          · cases h1; exact absurd h2 hv
          · exact .inr ⟨v, h1, h2⟩

private theorem mem_keep [DecidableEq K] (it : IterOrder K UInt32) (minPoints : UInt32) (hmin : minPoints ≠ 0)
    (data : List K) (k : K) :
    k ∈ (grainsToKeep it minPoints (data.foldl countGrain .empty)).elems ↔ minPoints.toNat ≤ data.count k % 2 ^ 32 := by
  unfold grainsToKeep
  rw [foldl_keep]
  have hf := fold_find data .empty k
  rw [UMap.find?_empty] at hf
  simp only [Option.getD_none, UInt32.reduceToNat, Nat.zero_add] at hf
  rw [← hf]
  constructor
  · rintro (h | ⟨v, h1, h2⟩)
    · simp at h
    · rw [(it.perm _).mem_iff, ← UMap.find?_eq_some] at h1
      rw [h1]
      exact UInt32.le_iff_toNat_le.1 h2
  · intro h
    rcases hm : (data.foldl countGrain .empty).find? k with _ | v
    · rw [hm] at h
      simp only [Option.getD_none, UInt32.reduceToNat, Nat.le_zero] at h
      exact absurd (UInt32.toNat_inj.1 h) hmin
    · rw [hm] at h
      exact .inr ⟨v, by rw [(it.perm _).mem_iff, ← UMap.find?_eq_some]; exact hm, UInt32.le_iff_toNat_le.2 h⟩

private theorem offer_dropper [DecidableEq K] (it : IterOrder K UInt32) (minPoints : UInt32) (batches : List (List K))
    (hne : ∀ b ∈ batches, b ≠ []) (m : UMap K UInt32) :
    offer (dropperHooks it minPoints) batches ⟨.training, false, m⟩
      = (.ok (), ⟨.training, false, batches.flatten.foldl countGrain m⟩) := by
  induction batches generalizing m with
  | nil => rfl
  | cons b bs ih =>
    have hb : ¬ b.length = 0 := fun h => hne b (by simp) (List.length_eq_zero_iff.1 h)
    simp only [offer, if_true, Est.fit, ne_eq, not_true_eq_false, if_false, hb, dropperHooks]
    rw [List.flatten_cons, List.foldl_append]
    exact ih (fun x hx => hne x (by simp [hx])) _

/-- **C39 (exact).**  Train the dropper on any batches of grains and execute the transformer on any grains: nothing throws,
and the answer for each is "drop" exactly if the number of its training rows, modulo 2^32, is below the threshold —
whatever the order of the rows, the batches, and the iteration order of the hash map. -/
theorem C39_exact [DecidableEq K] (it : IterOrder K UInt32) (cols colIndex : Nat) (hcol : colIndex < cols)
    (minPoints : UInt32) (hmin : minPoints ≠ 0) (batches : List (List K)) (hne : ∀ b ∈ batches, b ≠ []) :
    ∃ e e' keep e'', newDropper cols colIndex minPoints = .ok e ∧
      trainOnce (dropperHooks it minPoints) batches e = (.ok (), e') ∧
      Est.createTransformer (dropperHooks it minPoints) e' = (.ok keep, e'') ∧
      ∀ xs, dropperXf.runAll keep xs
        = ⟨xs.map fun k => decide (batches.flatten.count k % 2 ^ 32 < minPoints.toNat), none, keep⟩ := by
  refine ⟨.new .empty, ⟨.completed, false, batches.flatten.foldl countGrain .empty⟩,
    grainsToKeep it minPoints (batches.flatten.foldl countGrain .empty), ⟨.completed, true, .empty⟩, ?_, ?_, ?_, ?_⟩
  · simp [newDropper, hmin, Nat.not_le.2 hcol]
  · have hb : Est.beginTraining (dropperHooks it minPoints) (Est.new .empty)
        = (.ok (), (⟨.training, false, .empty⟩ : Est (UMap K UInt32))) := rfl
    unfold trainOnce
    rw [hb]
    simp only [offer_dropper it minPoints batches hne]
    rfl
  · rfl
  · intro xs
    have hex : ∀ (keep : USet K) (k : K), dropperXf.exec keep k = ⟨[!decide (k ∈ keep.elems)], none, keep⟩ := fun _ _ => rfl
    have hall : ∀ xs : List K, ∀ keep : USet K,
        dropperXf.execAll keep xs = ⟨xs.map fun k => !decide (k ∈ keep.elems), none, keep⟩ := by
      intro xs
      induction xs with
      | nil => intro keep; rfl
      | cons x xs ih => intro keep; simp only [Xf.execAll, hex, ih, List.map_cons]; rfl
    have hfl : ∀ keep : USet K, dropperXf.flush keep = ⟨[], none, keep⟩ := fun _ => rfl
    simp only [Xf.runAll, hall, hfl, List.append_nil, Run.mk.injEq, and_true]
    apply List.map_congr_left
    intro k _
    rw [← decide_not, decide_eq_decide, mem_keep it minPoints hmin]
    omega

/-- **C39 (partial).**  If no grain has 2^32 or more training rows, a grain's rows are kept exactly if it had at least
`minPoints` training rows.  (Missing: longer trainings, for which it is false, see `C39_wraps_false`.) -/
theorem C39_short_grain_dropper_partial [DecidableEq K] (it : IterOrder K UInt32) (cols colIndex : Nat)
    (hcol : colIndex < cols) (minPoints : UInt32) (hmin : minPoints ≠ 0) (batches : List (List K))
    (hne : ∀ b ∈ batches, b ≠ []) (hcount : ∀ k, batches.flatten.count k < 2 ^ 32) :
    ∃ e e' keep e'', newDropper cols colIndex minPoints = .ok e ∧
      trainOnce (dropperHooks it minPoints) batches e = (.ok (), e') ∧
      Est.createTransformer (dropperHooks it minPoints) e' = (.ok keep, e'') ∧
      ∀ xs, dropperXf.runAll keep xs
        = ⟨xs.map fun k => !decide (minPoints.toNat ≤ batches.flatten.count k), none, keep⟩ := by
  obtain ⟨e, e', keep, e'', h1, h2, h3, h4⟩ := C39_exact it cols colIndex hcol minPoints hmin batches hne
  refine ⟨e, e', keep, e'', h1, h2, h3, fun xs => ?_⟩
  rw [h4, Run.mk.injEq]
  refine ⟨?_, rfl, rfl⟩
  apply List.map_congr_left
  intro k _
  rw [Nat.mod_eq_of_lt (hcount k), ← decide_not, decide_eq_decide, Nat.not_le]

/-- **C39 is false for a grain with 2^32 rows**: it is dropped whatever the threshold. -/
theorem C39_wraps_false [DecidableEq K] (it : IterOrder K UInt32) (k : K) (minPoints : UInt32) (hmin : minPoints ≠ 0)
    (batches : List (List K)) (hne : ∀ b ∈ batches, b ≠ []) (hcount : batches.flatten.count k = 2 ^ 32) :
    ∃ e' keep e'', trainOnce (dropperHooks it minPoints) batches (.new .empty) = (.ok (), e') ∧
      Est.createTransformer (dropperHooks it minPoints) e' = (.ok keep, e'') ∧
      (dropperXf.exec keep k).outs = [true] := by
  obtain ⟨e, e', keep, e'', h1, h2, h3, h4⟩ := C39_exact it 1 0 (by decide) minPoints hmin batches hne
  have he : e = .new .empty := by
    simp only [newDropper, hmin, if_false] at h1
    cases h1
    rfl
  subst he
  refine ⟨e', keep, e'', h2, h3, ?_⟩
  have := h4 [k]
  simp only [Xf.runAll, Xf.execAll, dropperXf, Xf.ofFun, noFlush, List.map_cons, List.map_nil, List.append_nil,
    Run.mk.injEq, and_true, hcount] at this
  show [!decide (k ∈ keep.elems)] = [true]
  rw [this]
  have : 0 < minPoints.toNat := Nat.pos_of_ne_zero fun h => hmin (UInt32.toNat_inj.1 h)
  simp [this]

/-- **C39 (order of the rows).**  Training on the same rows in another order, in other batches, with another iteration
order of the hash map, gives a transformer with the same answers. -/
theorem C39_order [DecidableEq K] (it it' : IterOrder K UInt32) (minPoints : UInt32) (hmin : minPoints ≠ 0)
    (b1 b2 : List (List K)) (h1 : ∀ b ∈ b1, b ≠ []) (h2 : ∀ b ∈ b2, b ≠ []) (hp : b1.flatten.Perm b2.flatten) :
    ∃ e1 e2 k1 k2 x1 x2, trainOnce (dropperHooks it minPoints) b1 (.new .empty) = (.ok (), e1) ∧
      trainOnce (dropperHooks it' minPoints) b2 (.new .empty) = (.ok (), e2) ∧
      Est.createTransformer (dropperHooks it minPoints) e1 = (.ok k1, x1) ∧
      Est.createTransformer (dropperHooks it' minPoints) e2 = (.ok k2, x2) ∧
      ∀ xs, (dropperXf.runAll k1 xs).outs = (dropperXf.runAll k2 xs).outs := by
  obtain ⟨e, e1, k1, x1, a0, a1, a2, a3⟩ := C39_exact it 1 0 (by decide) minPoints hmin b1 h1
  obtain ⟨e', e2, k2, x2, c0, c1, c2, c3⟩ := C39_exact it' 1 0 (by decide) minPoints hmin b2 h2
  have he : e = .new .empty := by
    simp only [newDropper, hmin, if_false] at a0
    cases a0
    rfl
  have he' : e' = .new .empty := by
    simp only [newDropper, hmin, if_false] at c0
    cases c0
    rfl
  subst he he'
  refine ⟨e1, e2, k1, k2, x1, x2, a1, c1, a2, c2, fun xs => ?_⟩
  rw [a3, c3]
  simp only [hp.count_eq]

/-- **C39 (constructor).**  A threshold of zero and a column that does not exist are rejected. -/
theorem C39_constructor (cols colIndex : Nat) (minPoints : UInt32) :
    ((newDropper cols colIndex minPoints : Except Err (Est (UMap K UInt32))) = .error .invalidArgument) ↔
      cols ≤ colIndex ∨ minPoints = 0 := by
  unfold newDropper
  by_cases h1 : colIndex ≥ cols
  · simp [h1]
  · by_cases h2 : minPoints = 0
    · simp [h1, h2]
    · simp only [h1, h2, if_false, or_false]
      constructor
      · intro h; cases h
      · intro h; cases h

/-! Non-vacuity: grain 1 has three rows, grain 2 has one; the threshold is two. -/

example : ((trainOnce (dropperHooks (.reverse) 2) [[1, 2], [1], [1]] (.new .empty)).2).state = .completed ∧
    ((Est.createTransformer (dropperHooks .reverse 2)
      (trainOnce (dropperHooks .reverse 2) [[1, 2], [1], [1]] (.new .empty)).2).1.map
        fun keep => (dropperXf.runAll keep [2, 1, 3]).outs) = .ok [true, false, true] := ⟨rfl, rfl⟩

example : ∃ batches : List (List Nat), (∀ b ∈ batches, b ≠ []) ∧
    batches.flatten.count 7 = 2 ^ 32 := by
  refine ⟨[List.replicate (2 ^ 32) 7], ?_, ?_⟩
  · intro b hb
    rw [List.mem_singleton] at hb
    rw [hb, Ne, List.replicate_eq_nil_iff]
    decide
  · rw [List.flatten_singleton, List.count_replicate_self]

end Feat
