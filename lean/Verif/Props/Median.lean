import Verif.Proofs.Median
import Mathlib.Algebra.Order.Ring.Rat
import Mathlib.Tactic.NormNum
/-
C22 median.
-/
namespace Feat
variable {V T α : Type}

/-- `m` is the median of the values: with `s` the values in increasing order and `n` their number, the middle
element for odd `n` (or always, when not interpolating, the lower middle one), and the `mean` of the two
middle ones for even `n`. -/
def IsMedian [LE V] (interpolate : Bool) (mean : V → V → V) (values : List V) (m : V) : Prop :=
  ∃ s : List V, s.Perm values ∧ s.Pairwise (· ≤ ·) ∧
    ∃ lower upper, s[(s.length - 1) / 2]? = some lower ∧ s[s.length / 2]? = some upper ∧
      m = if interpolate = true ∧ s.length % 2 = 0 then mean lower upper else lower

private theorem median_of_inv [LinearOrder V] (xs : List V) (h : Heaps V) (hi : HeapsInv xs h)
    (interpolate : Bool) (mean : V → V → V) (zero : V) :
    if xs = [] then h.median interpolate mean zero = .error .runtimeError
    else ∃ m, h.median interpolate mean zero = .ok m ∧ IsMedian interpolate mean xs m := by
  obtain ⟨hp, hs, hz⟩ := hi
  have hl := hp.length_eq
  simp only [List.length_append, List.length_reverse] at hl
  split
  · rename_i he
    subst he
    simp only [List.length_nil] at hl
    unfold Heaps.median
    simp only
    rw [if_pos (by omega)]
  · rename_i hne
    have hpos : xs.length ≠ 0 := fun h0 => hne (List.length_eq_zero_iff.1 h0)
    unfold Heaps.median
    simp only
    rw [if_neg (by omega)]
    cases hsm : h.smaller with
    | nil => rw [hsm] at hz hl; simp only [List.length_nil] at hz hl; omega
    | cons t rest =>
      have hlen : (h.smaller.reverse ++ h.larger).length = h.smaller.length + h.larger.length := by simp
      have hsl : h.smaller.length = rest.length + 1 := by rw [hsm]; simp
      have hlow : (h.smaller.reverse ++ h.larger)[rest.length]? = some t := by
        rw [hsm]
        simp
      simp only
      split
      · rename_i hc
        have hidx : ((h.smaller.reverse ++ h.larger).length - 1) / 2 = rest.length := by
          rw [hlen]; omega
        refine ⟨t, rfl, _, hp, hs, t, ?_⟩
        have hup : ∃ u, (h.smaller.reverse ++ h.larger)[(h.smaller.reverse ++ h.larger).length / 2]?
            = some u := by
          have : (h.smaller.reverse ++ h.larger).length / 2 < (h.smaller.reverse ++ h.larger).length := by
            omega
          exact ⟨_, List.getElem?_eq_getElem this⟩
        obtain ⟨u, hu⟩ := hup
        refine ⟨u, by rw [hidx]; exact hlow, hu, ?_⟩
        rw [if_neg]
        rw [hlen]
        rintro ⟨h1, h2⟩
        rcases hc with h | h
        · rw [h] at h1; cases h1
        · simp only [List.length_cons] at h; omega
      · rename_i hc
        have hi1 : interpolate = true := by
          cases interpolate
          · exact absurd (.inl rfl) hc
          · rfl
        have heven : (h.smaller.length + h.larger.length) % 2 = 0 := by
          have : ¬ (h.smaller.length + h.larger.length) % 2 = 1 := by
            intro hh; exact hc (.inr (by rw [hsm] at hh; exact hh))
          omega
        have heq : h.smaller.length = h.larger.length := by omega
        cases hla : h.larger with
        | nil => rw [hla] at heq; rw [hsl] at heq; simp at heq
        | cons g gs =>
          refine ⟨_, rfl, _, hp, hs, t, g, ?_, ?_, ?_⟩
          · have hidx : ((h.smaller.reverse ++ h.larger).length - 1) / 2 = rest.length := by
              rw [hlen]; omega
            rw [hidx]; exact hlow
          · have hidx : (h.smaller.reverse ++ h.larger).length / 2 = h.smaller.reverse.length := by
              rw [hlen, List.length_reverse]; omega
            rw [hidx, hla]
            simp
          · rw [if_pos ⟨hi1, by rw [hlen]; exact heven⟩]

/-- **C22** After training on any batches, the median estimator publishes the median of the non-null values
among the (first `cap`) items; if there are none, training throws `runtime_error`.  Holds over any totally
ordered value type and any function computing the mean of the two middle values. -/
theorem C22_median [LinearOrder V] (cast : T → V) (interpolate : Bool) (mean : V → V → V) (zero : V)
    (wrap : V → α) (kind : α → Bool) (hkind : ∀ v, kind (wrap v) = true)
    (col cap : Nat) (hcap : 0 < cap) (batches : List (List (Option T))) (hb : NoEmptyBatch batches)
    (maps : AnnotationMaps α) (hcol : col < maps.length)
    (hnone : getAnnotation kind maps col "MedianEstimator" = .ok none) :
    let values := (batches.flatten.take cap).filterMap (fun x => x.map cast)
    if values = [] then
      trainEstimator (medianPolicy cast interpolate mean zero wrap) (medianConfig col kind) cap ⟨[], []⟩
        batches maps = (.error .runtimeError, maps)
    else ∃ m maps',
      trainEstimator (medianPolicy cast interpolate mean zero wrap) (medianConfig col kind) cap ⟨[], []⟩
        batches maps = (.ok (), maps') ∧
      getAnnotation kind maps' col "MedianEstimator" = .ok (some (wrap m)) ∧
      IsMedian interpolate mean values m := by
  intro values
  have ht := trainEstimator_fold (medianPolicy cast interpolate mean zero wrap)
    (fun s x => match x with
      | none => s
      | some x => (s.push (cast x)).rebalance) (fun _ _ => rfl) (fun _ _ => rfl)
    (medianConfig col kind) cap hcap ⟨[], []⟩ batches hb maps hcol rfl hnone
  have hinv := heaps_fold cast (batches.flatten.take cap) [] ⟨[], []⟩
    ⟨by simp, by simp, .inl rfl⟩
  rw [List.nil_append] at hinv
  generalize (batches.flatten.take cap).foldl _ _ = h at ht hinv
  have hm := median_of_inv _ h hinv interpolate mean zero
  simp only [medianPolicy] at ht
  change if values = [] then _ else _ at hm
  split at hm
  · rename_i he
    rw [if_pos he]
    rw [hm] at ht
    exact ht
  · rename_i he
    rw [if_neg he]
    obtain ⟨m, h1, h2⟩ := hm
    rw [h1] at ht
    exact ⟨m, _, ht.trans (addAnnotation_ok maps _ col _ hcol).1,
      getAnnotation_add_self maps _ col _ _ (hkind m) hnone, h2⟩

/-- **C22** (order independence) A list of values has at most one median, and the same one in every
order. -/
theorem C22_unique [LinearOrder V] (interpolate : Bool) (mean : V → V → V) (xs ys : List V)
    (hperm : xs.Perm ys) (m m' : V) (h : IsMedian interpolate mean xs m)
    (h' : IsMedian interpolate mean ys m') : m = m' := by
  obtain ⟨s, hp, hs, lo, up, h1, h2, h3⟩ := h
  obtain ⟨s', hp', hs', lo', up', h1', h2', h3'⟩ := h'
  have heq : s = s' := by
    apply List.Perm.eq_of_pairwise' hs hs'
    exact (hp.trans hperm).trans hp'.symm
  subst heq
  rw [h1] at h1'
  rw [h2] at h2'
  cases h1'; cases h2'
  rw [h3, h3']

/-! Non-vacuity: 1, 4, 2 and a null have median 2; with 10 added, the mean of 2 and 4, over the rationals. -/
example : ∃ maps', trainEstimator (medianPolicy (id : Rat → Rat) true (fun a b => (a + b) / 2) 0 id)
      (medianConfig 0 (fun _ => true)) 9 ⟨[], []⟩ [[some 10, some 1], [none, some 4, some 2]] [[]]
        = (.ok (), maps') ∧
    getAnnotation (fun _ => true) maps' 0 "MedianEstimator" = .ok (some (3 : Rat)) := by
  have h := C22_median (id : Rat → Rat) true (fun a b => (a + b) / 2) 0 (id : Rat → Rat) (fun _ => true)
    (fun _ => rfl) 0 9 (by decide) [[some 10, some 1], [none, some 4, some 2]]
    (by intro b hb; simp at hb; rcases hb with rfl | rfl <;> simp) [[]] (by simp) rfl
  simp only [List.flatten, Option.map, id] at h
  obtain ⟨m, maps', h1, h2, h3⟩ := h
  have h4 : IsMedian true (fun a b : Rat => (a + b) / 2) [10, 1, 4, 2] 3 :=
    ⟨[1, 2, 4, 10], by decide +kernel, by decide +kernel, 2, 4, rfl, rfl, by norm_num⟩
  have := C22_unique true _ _ _ (List.Perm.refl _) m 3 h3 h4
  subst this
  exact ⟨maps', h1, h2⟩

end Feat
