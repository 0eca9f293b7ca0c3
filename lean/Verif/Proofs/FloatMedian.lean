import Verif.Model.FloatMedian
import Verif.Spec.FloatMedian
import Verif.Props.FloatStats
import Verif.Proofs.Median
/-
The median in floating point arithmetic.
-/
namespace Feat.FloatMedian
open FloatText FloatArith FloatStats FloatNorms FloatScalers
variable {ι V S T α : Type}

/-! ### Halves -/

theorem mag_double (F : Fmt) {m : Nat} (hm : 2 ^ F.frac ≤ m) : F.mag (m + 2 ^ F.frac) = 2 * F.mag m := by
  have hP : 0 < 2 ^ F.frac := Nat.pow_pos (by norm_num)
  unfold Fmt.mag
  generalize 2 ^ F.frac = P at hP hm ⊢
  have h1 : m / P ≠ 0 := (Nat.div_pos hm hP).ne'
  rw [if_neg h1, Nat.add_div_right _ hP, if_neg (Nat.succ_ne_zero _), Nat.add_mod_right]
  obtain ⟨e, he⟩ := Nat.exists_eq_succ_of_ne_zero h1
  rw [he, Nat.succ_sub_one, Nat.succ_sub_one, pow_succ]
  ring

theorem mag_small (F : Fmt) {m : Nat} (hm : m ≤ 2 * 2 ^ F.frac) : F.mag m = m := by
  have := F.mag_line 0 m hm (.inl rfl)
  simpa using this

/-- The half of a rounded number is the rounded half. -/
theorem rnd_half {F : Fmt} (h : F.Good) {z : Int} (hfin : (rnd F ((z : ℚ) / 2 ^ F.scale)).natAbs < F.inf) :
    rnd F (fval F (rnd F ((z : ℚ) / 2 ^ F.scale)) / 2) = rnd F ((z : ℚ) / 2 ^ F.scale / 2) := by
  have key : ∀ n : Nat, (rnd F ((n : ℚ) / 2 ^ F.scale)).natAbs < F.inf →
      rnd F (fval F (rnd F ((n : ℚ) / 2 ^ F.scale)) / 2) = rnd F ((n : ℚ) / 2 ^ F.scale / 2) := by
    intro n hfin
    have hP : 0 < 2 ^ F.frac := Nat.pow_pos (by norm_num)
    have hs : (0 : ℚ) < 2 ^ F.scale := by positivity
    by_cases hn : n ≤ 2 * 2 ^ F.frac
    · have he : ((n : ℚ) / 2 ^ F.scale) = fval F (n : Int) := by rw [fval_nat, mag_small F hn]
      rw [he] at hfin ⊢
      by_cases hi : n ≤ F.inf
      · rw [rnd_fval h (by simpa using hi)]
      · exfalso
        have h1 := rnd_mono h (fval_le (F := F).2 (show ((F.inf : Nat) : Int) ≤ (n : Int) by omega))
        rw [rnd_fval h (by simp)] at h1
        omega
    · obtain ⟨m, hm, hr⟩ := rnd_near h (q := (n : ℚ) / 2 ^ F.scale) (by positivity)
      rw [hr] at hfin ⊢
      have hmi : m < F.inf := by simp at hfin; omega
      rw [Nat.min_eq_left hmi.le]
      rw [div_mul_cancel₀ _ hs.ne'] at hm
      have hm2 : 2 * 2 ^ F.frac ≤ m := by
        have := (F.near_self (2 * 2 ^ F.frac)).mono hm (by rw [mag_small F le_rfl]; exact_mod_cast (by omega : 2 * 2 ^ F.frac ≤ n))
        exact this
      obtain ⟨k, rfl⟩ : ∃ k, m = k + 2 ^ F.frac := ⟨m - 2 ^ F.frac, by omega⟩
      have hk : 2 ^ F.frac ≤ k := by omega
      have hv : fval F ((k + 2 ^ F.frac : Nat) : Int) / 2 = fval F (k : Int) := by
        rw [fval_nat, fval_nat, mag_double F hk]
        push_cast
        ring
      rw [hv, rnd_fval h (by simp; omega)]
      symm
      have hnear : F.Near ((n : ℚ) / 2 ^ F.scale / 2 * 2 ^ F.scale) k := by
        have e1 : (n : ℚ) / 2 ^ F.scale / 2 * 2 ^ F.scale = n / 2 := by field_simp
        rw [e1]
        have hdist : ∀ j, 2 ^ F.frac ≤ j → |(F.mag j : ℚ) - n / 2| = |(F.mag (j + 2 ^ F.frac) : ℚ) - n| / 2 := by
          intro j hj
          rw [mag_double F hj]
          push_cast
          rw [← abs_of_pos (show (0 : ℚ) < 2 by norm_num), ← abs_div, abs_of_pos (show (0 : ℚ) < 2 by norm_num)]
          congr 1
          ring
        have big : (2 ^ F.frac : ℚ) < n / 2 := by
          have : (2 * 2 ^ F.frac : ℚ) < n := by exact_mod_cast not_le.1 hn
          linarith
        have hz : F.mag (2 ^ F.frac) = 2 ^ F.frac := mag_small F (by omega)
        intro m'
        by_cases hj : 2 ^ F.frac ≤ m'
        · have := hm (m' + 2 ^ F.frac)
          rw [hdist k hk, hdist m' hj]
          refine ⟨by linarith [this.1], fun hne heq => ?_⟩
          have h2 := this.2 (by omega) (by linarith)
          have hpar : (2 ^ F.frac) % 2 = 0 := by
            obtain ⟨f, hf⟩ : ∃ f, F.frac = f + 1 := ⟨F.frac - 1, by have := h.frac; omega⟩
            rw [hf, pow_succ]; omega
          omega
        · have hlt : F.mag m' < F.mag (2 ^ F.frac) := Fmt.mag_mono F (by omega)
          have h1 : |(F.mag (2 ^ F.frac) : ℚ) - n / 2| < |(F.mag m' : ℚ) - n / 2| := by
            have hlt' : (F.mag m' : ℚ) < 2 ^ F.frac := by rw [hz] at hlt; exact_mod_cast hlt
            rw [hz]
            push_cast
            rw [abs_of_neg (by linarith), abs_of_neg (by linarith)]
            linarith
          have h2 : |(F.mag k : ℚ) - n / 2| ≤ |(F.mag (2 ^ F.frac) : ℚ) - n / 2| := by
            rw [hdist k hk, hdist _ le_rfl]
            linarith [(hm (2 ^ F.frac + 2 ^ F.frac)).1]
          exact ⟨by linarith, fun _ heq => by linarith⟩
      have := rnd_of_near h (by positivity) hnear
      rw [this, Nat.min_eq_left (by omega)]
  rcases le_total 0 z with hz | hz
  · obtain ⟨n, rfl⟩ := Int.eq_ofNat_of_zero_le hz
    have e : (((n : Int) : Int) : ℚ) = (n : ℚ) := Int.cast_natCast n
    have := key n (by rw [← e]; exact hfin)
    rw [← e] at this
    exact this
  · obtain ⟨n, hn⟩ := Int.eq_ofNat_of_zero_le (show 0 ≤ -z by omega)
    have hz' : z = -(n : Int) := by omega
    subst hz'
    have e : (((-(n : Int) : Int) : ℚ) / 2 ^ F.scale) = -((n : ℚ) / 2 ^ F.scale) := by push_cast; ring
    rw [e, rnd_neg h, Int.natAbs_neg] at hfin
    rw [e, rnd_neg h]
    rw [fval_neg, neg_div, neg_div, rnd_neg h, rnd_neg h, key n hfin]

/-- The sum of two numbers is a multiple of the unit. -/
theorem sum_units [FloType T] [Lawful T] (x y : T) : ∃ z : Int, value x + value y = (z : ℚ) / 2 ^ (fmt T).scale := by
  have : ∀ x : T, ∃ z : Int, value x = (z : ℚ) / 2 ^ (fmt T).scale := by
    intro x
    rw [value_key]
    unfold fval
    split
    · exact ⟨-((fmt T).mag (key x).natAbs : Int), by push_cast; ring⟩
    · exact ⟨((fmt T).mag (key x).natAbs : Int), by push_cast; ring⟩
  obtain ⟨a, ha⟩ := this x
  obtain ⟨b, hb⟩ := this y
  exact ⟨a + b, by rw [ha, hb]; push_cast; ring⟩

theorem value_two : Finite (ofInt 2 : F64) ∧ value (ofInt 2 : F64) = 2 := by
  have h := ofInt_exact (T := F64) (z := 2) (by decide +kernel)
  exact ⟨h.1, by rw [h.2]; norm_num⟩

/-- The half of the sum. -/
theorem half_sum {x y : F64} (hx : Finite x) (hy : Finite y) (hs : |value x + value y| < tooLarge F64) :
    key (div (add x y) (ofInt 2)) = rnd (fmt F64) ((value x + value y) / 2) := by
  have hk := key_add hx hy
  have hlt := rnd_finite hs
  have hf : Finite (add x y) := by rw [finite_key, hk]; exact hlt
  rw [key_div hf value_two.1 (by rw [value_two.2]; norm_num), value_two.2, value_key, hk]
  obtain ⟨z, hz⟩ := sum_units x y
  rw [hz] at hlt ⊢
  exact rnd_half Lawful.good hlt

/-- The sum is too large: the half is infinite. -/
theorem half_over {x y : F64} (hx : Finite x) (hy : Finite y) (hs : tooLarge F64 ≤ |value x + value y|) :
    IsInf (div (add x y) (ofInt 2)) := by
  have hk := key_add hx hy
  have hge : ¬ (key (add x y)).natAbs < (fmt F64).inf := by rw [hk, rnd_finite_iff]; exact not_lt.2 hs
  have hle : (key (add x y)).natAbs ≤ (fmt F64).inf := by rw [hk]; exact rnd_bound _
  have hi : isInf (add x y) = true := by
    unfold isInf
    rw [decide_eq_true_iff, ← key_natAbs]
    omega
  rw [← isInf_iff]
  unfold div
  have h2 := value_two.1
  rw [if_neg (by simp [isNaN_of_inf hi, Finite.not_nan h2]), if_pos hi, if_neg (by simp [Finite.not_inf h2])]
  exact isInf_make _

/-! ### Places -/

section
variable [FloType T] [Lawful T]

theorem key_ofKey {k : Int} (hk : k.natAbs ≤ (fmt T).inf) : key (ofKey k : T) = k := by
  unfold ofKey
  rw [key_make _ (lt_of_le_of_lt hk (inf_lt_signBit T))]
  by_cases h : k < 0
  · rw [decide_eq_true h, if_pos rfl]; omega
  · rw [decide_eq_false h, if_neg (by simp)]; omega

omit [Lawful T] in
theorem key_bound {x : T} (h : isNaN x = false) : (key x).natAbs ≤ (fmt T).inf := by
  unfold isNaN at h
  rw [key_natAbs]
  simpa using h

omit [Lawful T] in
/-- Feeding the heaps. -/
theorem heaps_run (get : ι → Option T) (xs : List ι) :
    HeapsInv ((xs.filterMap get).map key)
      (xs.foldl (fun s x => match get x with
        | none => s
        | some v => (s.push (key v)).rebalance) (⟨[], []⟩ : Heaps Int)) := by
  have h := heaps_fold (key : T → Int) (xs.map get) [] ⟨[], []⟩ ⟨by simp, by simp, .inl rfl⟩
  rw [List.nil_append, List.foldl_map] at h
  have e : nonNull (key : T → Int) (xs.map get) = (xs.filterMap get).map key := by
    unfold nonNull
    rw [List.filterMap_map, List.map_filterMap]
    rfl
  rw [← e]
  exact h

/-- The tops of the heaps are the elements in the middle. -/
theorem heaps_middle [LinearOrder V] {xs : List V} {h : Heaps V} (hi : HeapsInv xs h) (hne : xs ≠ []) :
    ∃ t rest, h.smaller = t :: rest ∧ (h.smaller.reverse ++ h.larger)[((h.smaller.reverse ++ h.larger).length - 1) / 2]? = some t ∧
      (xs.length % 2 = 1 → (h.smaller.reverse ++ h.larger)[(h.smaller.reverse ++ h.larger).length / 2]? = some t) ∧
      (xs.length % 2 = 0 → ∃ g gs, h.larger = g :: gs ∧
        (h.smaller.reverse ++ h.larger)[(h.smaller.reverse ++ h.larger).length / 2]? = some g) := by
  obtain ⟨hp, hs, hz⟩ := hi
  have hl := hp.length_eq
  simp only [List.length_append, List.length_reverse] at hl
  have hpos : xs.length ≠ 0 := fun h0 => hne (List.length_eq_zero_iff.1 h0)
  cases hsm : h.smaller with
  | nil => rw [hsm] at hz hl; simp only [List.length_nil] at hz hl; omega
  | cons t rest =>
    rw [hsm] at hz hl
    simp only [List.length_cons] at hz hl
    have hlen : ((t :: rest).reverse ++ h.larger).length = rest.length + 1 + h.larger.length := by simp; omega
    have hlow : ((t :: rest).reverse ++ h.larger)[rest.length]? = some t := by simp
    refine ⟨t, rest, rfl, ?_, fun hodd => ?_, fun heven => ?_⟩
    · rw [hlen, show (rest.length + 1 + h.larger.length - 1) / 2 = rest.length by omega]
      exact hlow
    · rw [hlen, show (rest.length + 1 + h.larger.length) / 2 = rest.length by omega]
      exact hlow
    · cases hla : h.larger with
      | nil => rw [hla] at hz hl; simp only [List.length_nil] at hz hl; omega
      | cons g gs =>
        rw [hla] at hz hl hlen
        simp only [List.length_cons] at hz hl hlen
        refine ⟨g, gs, rfl, ?_⟩
        rw [hlen, show (rest.length + 1 + (gs.length + 1)) / 2 = rest.length + 1 by omega]
        have : rest.length + 1 = (t :: rest).reverse.length := by simp
        rw [this]
        simp

/-- What the heaps of a column yield. -/
theorem median_of_heaps {vs : List T} (hn : ∀ v ∈ vs, isNaN v = false) {h : Heaps Int} (hi : HeapsInv (vs.map key) h) :
    (vs = [] → medianOf (T := T) h = .error .runtimeError) ∧
    (vs ≠ [] → ∃ a b m : T, medianOf h = .ok m ∧ Middles (vs.map value) (value a) (value b) ∧
      (key a).natAbs ≤ (fmt T).inf ∧ (key b).natAbs ≤ (fmt T).inf ∧
      (vs.length % 2 = 1 → m = a ∧ value b = value a) ∧ (vs.length % 2 = 0 → m = middle a b)) := by
  have hl := hi.perm.length_eq
  simp only [List.length_append, List.length_reverse, List.length_map] at hl
  constructor
  · rintro rfl
    simp only [List.length_nil] at hl
    unfold medianOf
    rw [if_pos hl]
  · intro hne
    obtain ⟨t, rest, hs, h1, h2, h3⟩ := heaps_middle hi (by simpa using hne)
    rw [List.length_map] at h2 h3
    have hpos : vs.length ≠ 0 := fun h0 => hne (List.length_eq_zero_iff.1 h0)
    have hbound : ∀ k ∈ h.smaller.reverse ++ h.larger, k.natAbs ≤ (fmt T).inf := by
      intro k hk
      obtain ⟨v, hv, rfl⟩ := List.mem_map.1 (hi.perm.mem_iff.1 hk)
      exact key_bound (hn v hv)
    have hval : ∀ k ∈ h.smaller.reverse ++ h.larger, value (ofKey k : T) = fval (fmt T) k := by
      intro k hk
      rw [value_key, key_ofKey (hbound k hk)]
    have hmid : ∀ g, (h.smaller.reverse ++ h.larger)[(h.smaller.reverse ++ h.larger).length / 2]? = some g →
        Middles (vs.map value) (value (ofKey t : T)) (value (ofKey g : T)) := by
      intro g hg
      refine ⟨(h.smaller.reverse ++ h.larger).map (fval (fmt T)), ?_, ?_, ?_, ?_⟩
      · have := hi.perm.map (fval (fmt T))
        rw [List.map_map] at this
        rwa [show vs.map value = vs.map (fval (fmt T) ∘ key) from List.map_congr_left fun v _ => value_key v]
      · rw [List.pairwise_map]
        exact hi.sorted.imp fun h => fval_le.2 h
      · rw [List.length_map, List.getElem?_map, h1, hval t (List.mem_of_getElem? h1)]
        rfl
      · rw [List.length_map, List.getElem?_map, hg, hval g (List.mem_of_getElem? hg)]
        rfl
    have ht := hbound t (List.mem_of_getElem? h1)
    rcases Nat.mod_two_eq_zero_or_one vs.length with heven | hodd
    · obtain ⟨g, gs, hla, hg⟩ := h3 heven
      have hgb := hbound g (List.mem_of_getElem? hg)
      refine ⟨ofKey t, ofKey g, middle (ofKey t) (ofKey g), ?_, hmid g hg, ?_, ?_, fun h => by omega, fun _ => rfl⟩
      · unfold medianOf
        rw [if_neg (by omega), hl, heven, hs, hla]
        rfl
      · rw [key_ofKey ht]; exact ht
      · rw [key_ofKey hgb]; exact hgb
    · refine ⟨ofKey t, ofKey t, ofKey t, ?_, hmid t (h2 hodd), ?_, ?_, fun _ => ⟨rfl, rfl⟩, fun h => by omega⟩
      · unfold medianOf
        rw [if_neg (by omega), hl, hodd, hs]
        rfl
      · rw [key_ofKey ht]; exact ht
      · rw [key_ofKey ht]; exact ht

/-- Training of the median. -/
theorem median_trained (get : ι → Option T) (wrap : T → α) (kind : α → Bool)
    (col cap : Nat) (hcap : 0 < cap) (batches : List (List ι)) (hb : NoEmptyBatch batches)
    (maps : AnnotationMaps α) (hcol : col < maps.length)
    (hnone : getAnnotation kind maps col "MedianEstimator" = .ok none)
    (vs : List T) (hvs : vs = (batches.flatten.take cap).filterMap get) (hn : ∀ v ∈ vs, isNaN v = false) :
    (vs = [] → trainEstimator (medianPolicy get wrap) (medianConfig col kind) cap ⟨[], []⟩ batches maps
        = (.error .runtimeError, maps)) ∧
    (vs ≠ [] → ∃ a b m : T, trainEstimator (medianPolicy get wrap) (medianConfig col kind) cap ⟨[], []⟩ batches maps
        = addAnnotation (some (wrap m)) col "MedianEstimator" maps ∧ Middles (vs.map value) (value a) (value b) ∧
      (key a).natAbs ≤ (fmt T).inf ∧ (key b).natAbs ≤ (fmt T).inf ∧
      (vs.length % 2 = 1 → m = a ∧ value b = value a) ∧ (vs.length % 2 = 0 → m = middle a b)) := by
  have ht := trainEstimator_fold (medianPolicy get wrap)
    (fun s x => match get x with
      | none => s
      | some v => (s.push (key v)).rebalance) (fun _ _ => rfl) (fun _ _ => rfl)
    (medianConfig col kind) cap hcap ⟨[], []⟩ batches hb maps hcol rfl hnone
  have hinv := heaps_run get (batches.flatten.take cap)
  rw [← hvs] at hinv
  generalize (batches.flatten.take cap).foldl _ _ = h at ht hinv
  obtain ⟨m1, m2⟩ := median_of_heaps hn hinv
  simp only [medianPolicy] at ht
  constructor
  · intro he
    rw [m1 he] at ht
    exact ht
  · intro hne
    obtain ⟨a, b, m, hm, hr⟩ := m2 hne
    rw [hm] at ht
    exact ⟨a, b, m, ht, hr⟩

end

end Feat.FloatMedian
