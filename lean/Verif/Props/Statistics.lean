import Verif.Model.Numeric
import Verif.Proofs.Components
import Mathlib.Algebra.Order.Ring.Rat
import Mathlib.Algebra.Order.Ring.Int
import Mathlib.Data.Int.Cast.Lemmas
import Mathlib.Algebra.Order.Ring.Cast
import Mathlib.Tactic.NormNum
import Mathlib.Data.List.Induction
import Mathlib.Tactic.Linarith
/-
C23 statistical metrics.
-/
namespace Feat
variable {V F T α : Type}

/-- `r` describes the values: extremes attained and bounding, number, exact sum, and average. -/
structure IsStats [LE V] [Add V] [Zero V] [Field F] (toF : V → F) (values : List V) (r : Stats V F) :
    Prop where
  min_mem : r.min ∈ values
  min_le : ∀ v ∈ values, r.min ≤ v
  max_mem : r.max ∈ values
  le_max : ∀ v ∈ values, v ≤ r.max
  count : r.count = values.length
  sum : r.sum = values.sum
  average : r.average = toF values.sum / (values.length : F)

/-- The range of a list, as kept by the updater. -/
private def rangeOf [LinearOrder V] (vs : List V) : Option (V × V) :=
  vs.foldl (fun r x => some (widen r x)) none

private theorem rangeOf_spec [LinearOrder V] (vs : List V) :
    (vs = [] ∧ rangeOf vs = none) ∨
    ∃ lo hi, rangeOf vs = some (lo, hi) ∧ lo ∈ vs ∧ hi ∈ vs ∧ (∀ v ∈ vs, lo ≤ v) ∧ ∀ v ∈ vs, v ≤ hi := by
  induction vs using List.reverseRecOn with
  | nil => left; exact ⟨rfl, rfl⟩
  | append_singleton vs x ih =>
    right
    have hr : rangeOf (vs ++ [x]) = some (widen (rangeOf vs) x) := by
      simp [rangeOf, List.foldl_append]
    rw [hr]
    rcases ih with ⟨rfl, h⟩ | ⟨lo, hi, h, h1, h2, h3, h4⟩
    · rw [h]
      exact ⟨x, x, rfl, by simp, by simp, by simp, by simp⟩
    · rw [h]
      refine ⟨if x < lo then x else lo, if x > hi then x else hi, rfl, ?_, ?_, ?_, ?_⟩
      · split <;> simp [h1]
      · split <;> simp [h2]
      · intro v hv
        rcases List.mem_append.1 hv with hv | hv
        · split
          · rename_i hx; exact le_trans (le_of_lt hx) (h3 v hv)
          · exact h3 v hv
        · rw [List.mem_singleton.1 hv]
          split
          · exact le_refl _
          · rename_i hx; exact not_lt.1 hx
      · intro v hv
        rcases List.mem_append.1 hv with hv | hv
        · split
          · rename_i hx; exact le_trans (h4 v hv) (le_of_lt hx)
          · exact h4 v hv
        · rw [List.mem_singleton.1 hv]
          split
          · exact le_refl _
          · rename_i hx; exact not_lt.1 hx

private def stateOf [LinearOrder V] [Add V] [Zero V] (vs : List V) : StatsState V :=
  ⟨rangeOf vs, vs.length, vs.sum⟩

/-- Fitting after the values `pre`. -/
private theorem fit_run [LinearOrder V] [AddCommMonoid V] [Field F] [LinearOrder F] (k : SumKind V F)
    (val : T → V) (wrap : Stats V F → α) (good : V → Prop) [DecidablePred good] (okv : V → Prop)
    (hstep : ∀ s v, good s → okv v →
      k.sumStep s v = if good (s + v) then .ok (s + v) else .error .runtimeError)
    (xs : List (Option T)) :
    ∀ pre : List V, good pre.sum → pre.length + xs.length < 2 ^ 64 →
      (∀ v ∈ xs.filterMap (fun x => x.map val), okv v) →
      ((∀ p, p <+: xs.filterMap (fun x => x.map val) → good (pre ++ p).sum) →
        (statsPolicy k val wrap).fitAll xs (stateOf pre)
          = (.ok (), stateOf (pre ++ xs.filterMap (fun x => x.map val)))) ∧
      ((¬ ∀ p, p <+: xs.filterMap (fun x => x.map val) → good (pre ++ p).sum) →
        ((statsPolicy k val wrap).fitAll xs (stateOf pre)).1 = .error .runtimeError) := by
  induction xs with
  | nil =>
    intro pre hg _ _
    refine ⟨fun _ => by simp [Policy.fitAll], fun h => ?_⟩
    exfalso
    apply h
    intro p hp
    rw [List.filterMap_nil, List.prefix_nil] at hp
    subst hp
    simpa using hg
  | cons x xs ih =>
    intro pre hg hl hv
    cases x with
    | none =>
      simp only [List.filterMap_cons, Option.map_none] at hv ⊢
      have := ih pre hg (by simp only [List.length_cons] at hl; omega) hv
      simp only [Policy.fitAll]
      exact this
    | some x =>
      simp only [List.filterMap_cons, Option.map_some] at hv ⊢
      have hx := hstep pre.sum (val x) hg (hv _ (by simp))
      simp only [List.length_cons] at hl
      have hc : ¬ pre.length = 2 ^ 64 - 1 := by omega
      by_cases hgood : good (pre.sum + val x)
      · rw [if_pos hgood] at hx
        have hs : (statsPolicy k val wrap).fit (some x) (stateOf pre)
            = (.ok (), stateOf (pre ++ [val x])) := by
          simp only [statsPolicy, statsUpdate, stateOf]
          rw [if_neg hc]
          simp only [hx]
          simp [rangeOf, List.foldl_append]
        have hsum : (pre ++ [val x]).sum = pre.sum + val x := by simp
        have := ih (pre ++ [val x]) (by rw [hsum]; exact hgood)
          (by simp only [List.length_append, List.length_cons, List.length_nil]; omega)
          (fun v h => hv v (List.mem_cons_of_mem _ h))
        simp only [Policy.fitAll, hs]
        constructor
        · intro h
          have h' := this.1 (fun p hp => by
            have := h (val x :: p) (List.cons_prefix_cons.2 ⟨rfl, hp⟩)
            simpa using this)
          rw [h']
          simp
        · intro h
          apply this.2
          intro hall
          apply h
          intro p hp
          rcases p with _ | ⟨a, p⟩
          · simpa using hg
          · obtain ⟨rfl, hp'⟩ := List.cons_prefix_cons.1 hp
            have := hall p hp'
            simpa using this
      · rw [if_neg hgood] at hx
        have hs : ((statsPolicy k val wrap).fit (some x) (stateOf pre)).1 = .error .runtimeError := by
          simp only [statsPolicy, statsUpdate, stateOf]
          rw [if_neg hc]
          simp only [hx]
        constructor
        · intro h
          exfalso
          apply hgood
          have := h [val x] (List.cons_prefix_cons.2 ⟨rfl, List.nil_prefix⟩)
          simpa using this
        · intro _
          simp only [Policy.fitAll]
          rcases hf : (statsPolicy k val wrap).fit (some x) (stateOf pre) with ⟨r, s⟩
          rw [hf] at hs
          simp only at hs
          subst hs
          rfl

private theorem toF_bounds [LinearOrder V] [AddCommMonoid V] [Field F] [LinearOrder F]
    [IsStrictOrderedRing F] (toF : V → F) (h0 : toF 0 = 0) (hadd : ∀ a b, toF (a + b) = toF a + toF b)
    (hmono : ∀ a b, a ≤ b → toF a ≤ toF b) (lo hi : V) (vs : List V) (h1 : ∀ v ∈ vs, lo ≤ v)
    (h2 : ∀ v ∈ vs, v ≤ hi) :
    toF lo * (vs.length : F) ≤ toF vs.sum ∧ toF vs.sum ≤ toF hi * (vs.length : F) := by
  induction vs with
  | nil => simp [h0]
  | cons v vs ih =>
    obtain ⟨i1, i2⟩ := ih (fun a h => h1 a (List.mem_cons_of_mem _ h))
      (fun a h => h2 a (List.mem_cons_of_mem _ h))
    have l := hmono lo v (h1 v (by simp))
    have u := hmono v hi (h2 v (by simp))
    simp only [List.sum_cons, List.length_cons, hadd, Nat.cast_add, Nat.cast_one]
    constructor <;> linarith

private theorem commit_spec [LinearOrder V] [AddCommMonoid V] [Field F] [LinearOrder F]
    [IsStrictOrderedRing F] (k : SumKind V F) (h0 : k.toF 0 = 0)
    (hadd : ∀ a b, k.toF (a + b) = k.toF a + k.toF b)
    (hmono : ∀ a b, a ≤ b → k.toF a ≤ k.toF b) (vs : List V) :
    (vs = [] → statsCommit k (stateOf vs) = .error .runtimeError) ∧
    (vs ≠ [] → ∃ r, statsCommit k (stateOf vs) = .ok r ∧ IsStats k.toF vs r) := by
  constructor
  · rintro rfl
    rfl
  · intro hne
    have hlen : vs.length ≠ 0 := fun h => hne (List.length_eq_zero_iff.1 h)
    rcases rangeOf_spec vs with ⟨h, _⟩ | ⟨lo, hi, h, h1, h2, h3, h4⟩
    · exact absurd h hne
    · obtain ⟨b1, b2⟩ := toF_bounds k.toF h0 hadd hmono lo hi vs h3 h4
      have hpos : (0 : F) < (vs.length : F) := by
        have : 0 < vs.length := by omega
        exact_mod_cast this
      refine ⟨⟨lo, hi, vs.length, vs.sum, k.toF vs.sum / (vs.length : F)⟩, ?_, ?_⟩
      · simp only [statsCommit, stateOf, h]
        rw [if_neg hlen, if_neg (not_lt.2 (h3 hi h2)), if_neg]
        rintro (hh | hh)
        · rw [gt_iff_lt, lt_div_iff₀ hpos] at hh
          exact absurd b2 (not_le.2 hh)
        · rw [div_lt_iff₀ hpos] at hh
          exact absurd b1 (not_le.2 hh)
      · exact ⟨h1, h3, h2, h4, rfl, rfl, rfl⟩

/-- Training in general. -/
private theorem stats_train [LinearOrder V] [AddCommMonoid V] [Field F] [LinearOrder F]
    [IsStrictOrderedRing F] (k : SumKind V F) (hz : k.zero = 0) (h0 : k.toF 0 = 0)
    (hadd : ∀ a b, k.toF (a + b) = k.toF a + k.toF b)
    (hmono : ∀ a b, a ≤ b → k.toF a ≤ k.toF b)
    (good : V → Prop) [DecidablePred good] (okv : V → Prop) (hg0 : good 0)
    (hstep : ∀ s v, good s → okv v →
      k.sumStep s v = if good (s + v) then .ok (s + v) else .error .runtimeError)
    (val : T → V) (wrap : Stats V F → α) (kind : α → Bool) (hkind : ∀ v, kind (wrap v) = true)
    (col cap : Nat) (hcap : 0 < cap) (hcap64 : cap < 2 ^ 64) (batches : List (List (Option T)))
    (hb : NoEmptyBatch batches) (maps : AnnotationMaps α) (hcol : col < maps.length)
    (hnone : getAnnotation kind maps col "StatisticalMetricsEstimator" = .ok none)
    (hv : ∀ v ∈ (batches.flatten.take cap).filterMap (fun x => x.map val), okv v) :
    let values := (batches.flatten.take cap).filterMap (fun x => x.map val)
    ((values = [] ∨ ¬ ∀ p, p <+: values → good p.sum) →
      trainEstimator (statsPolicy k val wrap) (statsConfig col kind) cap (StatsState.new k) batches maps
        = (.error .runtimeError, maps)) ∧
    ((values ≠ [] ∧ ∀ p, p <+: values → good p.sum) → ∃ r maps',
      trainEstimator (statsPolicy k val wrap) (statsConfig col kind) cap (StatsState.new k) batches maps
        = (.ok (), maps') ∧
      getAnnotation kind maps' col "StatisticalMetricsEstimator" = .ok (some (wrap r)) ∧
      IsStats k.toF values r) := by
  intro values
  have ht := trainEstimator_run (statsPolicy k val wrap) (fun _ _ => rfl) (statsConfig col kind) cap hcap
    (StatsState.new k) batches hb maps hcol rfl hnone
  have hnew : StatsState.new k = stateOf ([] : List V) := by
    simp [StatsState.new, stateOf, rangeOf, hz]
  have hlen : (batches.flatten.take cap).length ≤ cap := by simp
  have hrun := fit_run k val wrap good okv hstep (batches.flatten.take cap) [] (by simpa using hg0)
    (by simp only [List.length_nil]; omega) hv
  rw [hnew] at ht ⊢
  simp only [List.nil_append] at hrun
  obtain ⟨hr1, hr2⟩ : ((∀ p, p <+: values → good p.sum) →
      (statsPolicy k val wrap).fitAll (batches.flatten.take cap) (stateOf [])
        = (.ok (), stateOf values)) ∧
    ((¬ ∀ p, p <+: values → good p.sum) →
      ((statsPolicy k val wrap).fitAll (batches.flatten.take cap) (stateOf [])).1
        = .error .runtimeError) := hrun
  by_cases hall : ∀ p, p <+: values → good p.sum
  · rw [hr1 hall] at ht
    simp only at ht
    have hc := commit_spec k h0 hadd hmono values
    by_cases hne : values = []
    · refine ⟨fun _ => ?_, fun h => absurd hne h.1⟩
      have h3 : (statsPolicy k val wrap).complete maps (stateOf values)
          = (.error .runtimeError, stateOf values) := by
        simp only [statsPolicy, hc.1 hne]
        rfl
      rw [h3] at ht
      exact ht
    · refine ⟨fun h => by rcases h with h | h; exacts [absurd h hne, absurd hall h], fun _ => ?_⟩
      obtain ⟨r, h1, h2⟩ := hc.2 hne
      have h3 : (statsPolicy k val wrap).complete maps (stateOf values)
          = (.ok (wrap r), stateOf values) := by
        simp only [statsPolicy, h1]
        rfl
      rw [h3] at ht
      exact ⟨r, _, ht.trans (addAnnotation_ok maps _ col _ hcol).1,
        getAnnotation_add_self maps _ col _ _ (hkind r) hnone, h2⟩
  · refine ⟨fun _ => ?_, fun h => absurd h.2 hall⟩
    rw [ht]
    have h1 := hr2 hall
    rcases hf : (statsPolicy k val wrap).fitAll (batches.flatten.take cap) (stateOf []) with ⟨r, s⟩
    rw [hf] at h1
    simp only at h1
    subst h1
    rfl

private theorem wrap64_eq (v : Int) (h1 : -2 ^ 63 ≤ v) (h2 : v < 2 ^ 63) : wrap64 v = v := by
  unfold wrap64
  omega

private theorem intSumStep_eq (s v : Int) (hs : -2 ^ 63 ≤ s ∧ s < 2 ^ 63) (hv : -2 ^ 63 ≤ v ∧ v < 2 ^ 63) :
    intSumStep s v = if -2 ^ 63 ≤ s + v ∧ s + v < 2 ^ 63 then .ok (s + v) else .error .runtimeError := by
  unfold intSumStep
  simp only [wrap64_eq v hv.1 hv.2]
  split
  · rw [if_neg (by omega)]
    split
    · rw [if_neg (by omega)]
    · rw [if_pos (by omega)]
  · split
    · split
      · rw [if_neg (by omega)]
      · rw [if_pos (by omega)]
    · rw [if_pos (by omega)]

/-- **C23** (part: all integer inputs that fit `int64_t`, i.e. every integer type except `uint64_t` values of
2⁶³ or more, see `C23_uint64`) After training on any batches the published metrics are the exact minimum,
maximum, number, sum and average of the non-null values among the (first `cap`) items; if there are none, or
if a running sum does not fit `int64_t`, training throws `runtime_error` — never a wrapped sum. -/
theorem C23_integers_partial [Field F] [LinearOrder F] [IsStrictOrderedRing F]
    (val : T → Int) (wrap : Stats Int F → α) (kind : α → Bool) (hkind : ∀ v, kind (wrap v) = true)
    (col cap : Nat) (hcap : 0 < cap) (hcap64 : cap < 2 ^ 64) (batches : List (List (Option T)))
    (hb : NoEmptyBatch batches) (maps : AnnotationMaps α) (hcol : col < maps.length)
    (hnone : getAnnotation kind maps col "StatisticalMetricsEstimator" = .ok none)
    (hv : ∀ v ∈ (batches.flatten.take cap).filterMap (fun x => x.map val), -2 ^ 63 ≤ v ∧ v < 2 ^ 63) :
    let values := (batches.flatten.take cap).filterMap (fun x => x.map val)
    ((values = [] ∨ ¬ ∀ p, p <+: values → -2 ^ 63 ≤ p.sum ∧ p.sum < 2 ^ 63) →
      trainEstimator (statsPolicy intSum val wrap) (statsConfig col kind) cap (StatsState.new (intSum (F := F)))
        batches maps = (.error .runtimeError, maps)) ∧
    ((values ≠ [] ∧ ∀ p, p <+: values → -2 ^ 63 ≤ p.sum ∧ p.sum < 2 ^ 63) → ∃ r maps',
      trainEstimator (statsPolicy intSum val wrap) (statsConfig col kind) cap (StatsState.new (intSum (F := F)))
        batches maps = (.ok (), maps') ∧
      getAnnotation kind maps' col "StatisticalMetricsEstimator" = .ok (some (wrap r)) ∧
      IsStats (fun v : Int => (v : F)) values r) :=
  stats_train intSum rfl (by simp [intSum]) (by intro a b; simp [intSum])
    (by intro a b h; simp only [intSum]; exact_mod_cast h) (fun s => -2 ^ 63 ≤ s ∧ s < 2 ^ 63)
    (fun v => -2 ^ 63 ≤ v ∧ v < 2 ^ 63) (by decide) intSumStep_eq val wrap kind hkind col cap hcap hcap64
    batches hb maps hcol hnone hv

/-- **C23** (floating point inputs, exact arithmetic) The published metrics are the exact minimum, maximum,
number, sum and average; without values training throws. -/
theorem C23_exact [Field F] [LinearOrder F] [IsStrictOrderedRing F]
    (val : T → F) (wrap : Stats F F → α) (kind : α → Bool) (hkind : ∀ v, kind (wrap v) = true)
    (col cap : Nat) (hcap : 0 < cap) (hcap64 : cap < 2 ^ 64) (batches : List (List (Option T)))
    (hb : NoEmptyBatch batches) (maps : AnnotationMaps α) (hcol : col < maps.length)
    (hnone : getAnnotation kind maps col "StatisticalMetricsEstimator" = .ok none) :
    let values := (batches.flatten.take cap).filterMap (fun x => x.map val)
    (values = [] →
      trainEstimator (statsPolicy exactSum val wrap) (statsConfig col kind) cap (StatsState.new exactSum)
        batches maps = (.error .runtimeError, maps)) ∧
    (values ≠ [] → ∃ r maps',
      trainEstimator (statsPolicy exactSum val wrap) (statsConfig col kind) cap (StatsState.new exactSum)
        batches maps = (.ok (), maps') ∧
      getAnnotation kind maps' col "StatisticalMetricsEstimator" = .ok (some (wrap r)) ∧
      IsStats id values r) := by
  have h := stats_train (exactSum (F := F)) rfl rfl (fun _ _ => rfl) (fun _ _ h => h) (fun _ => True)
    (fun _ => True) trivial (by intro s v _ _; simp [exactSum]) val wrap kind hkind col cap hcap hcap64
    batches hb maps hcol hnone (fun _ _ => trivial)
  intro values
  exact ⟨fun hv => h.1 (.inl hv), fun hv => h.2 ⟨hv, fun _ _ => trivial⟩⟩

/-- **C23** fails for `uint64_t`: a first value of 2⁶³ or more is undefined behaviour, although the value is
legal (the check for overflow itself overflows). -/
theorem C23_uint64 [Field F] [LinearOrder F] [IsStrictOrderedRing F] (x : Nat) (h1 : 2 ^ 63 ≤ x)
    (h2 : x < 2 ^ 64) (wrap : Stats Int F → α) (kind : α → Bool) (col cap : Nat) (hcap : 0 < cap)
    (maps : AnnotationMaps α) (hcol : col < maps.length)
    (hnone : getAnnotation kind maps col "StatisticalMetricsEstimator" = .ok none) :
    (trainEstimator (statsPolicy intSum (fun v : Nat => (v : Int)) wrap) (statsConfig col kind) cap
      (StatsState.new (intSum (F := F))) [[some x]] maps).1 = .error .ub := by
  rw [trainEstimator_run (statsPolicy intSum (fun v : Nat => (v : Int)) wrap) (fun _ _ => rfl)
    (statsConfig col kind) cap hcap _ [[some x]] (by intro b hb; simp at hb; subst hb; simp) maps hcol rfl
    hnone]
  have hs : intSumStep 0 (x : Int) = .error .ub := by
    unfold intSumStep wrap64
    simp only
    rw [if_pos (by omega), if_pos (by omega)]
  have ht : ([[some x]] : List (List (Option Nat))).flatten.take cap = [some x] := by
    cases cap with
    | zero => omega
    | succ c => simp
  rw [ht]
  simp only [Policy.fitAll, statsPolicy, statsUpdate, StatsState.new, intSum]
  rw [if_neg (by decide)]
  simp only [hs]

/-! Non-vacuity: 3, null, −5, 4 over the rationals. -/
example : ∃ r maps', trainEstimator (statsPolicy intSum (id : Int → Int) (id : Stats Int Rat → _))
      (statsConfig 0 (fun _ => true)) 9 (StatsState.new (intSum (F := Rat))) [[some 3, none], [some (-5), some 4]]
      [[]] = (.ok (), maps') ∧
    getAnnotation (fun _ => true) maps' 0 "StatisticalMetricsEstimator" = .ok (some r) ∧
    r.count = 3 ∧ r.sum = 2 ∧ r.average = 2 / 3 ∧ r.min = -5 := by
  have h := C23_integers_partial (id : Int → Int) (id : Stats Int Rat → _) (fun _ => true) (fun _ => rfl) 0 9
    (by decide) (by decide) [[some 3, none], [some (-5), some 4]]
    (by intro b hb; simp at hb; rcases hb with rfl | rfl <;> simp) [[]] (by simp) rfl
    (by intro v hv; simp at hv; rcases hv with rfl | rfl | rfl <;> decide)
  obtain ⟨r, maps', h1, h2, h3⟩ := h.2 ⟨by simp, fun p hp => by
    have hp : p <+: ([3, -5, 4] : List Int) := hp
    rw [List.prefix_iff_eq_take] at hp
    have hl : p.length = 0 ∨ p.length = 1 ∨ p.length = 2 ∨ 3 ≤ p.length := by omega
    rcases hl with hl | hl | hl | hl
    · rw [hp, hl]; decide
    · rw [hp, hl]; decide
    · rw [hp, hl]; decide
    · rw [hp, List.take_of_length_le hl]; decide⟩
  have h3 : IsStats (fun v : Int => (v : Rat)) [3, -5, 4] r := h3
  refine ⟨r, maps', h1, h2, h3.count, by rw [h3.sum]; rfl, by rw [h3.average]; norm_num, ?_⟩
  have hm := h3.min_mem
  have hl := h3.min_le (-5) (by simp)
  simp at hm
  omega

/-! An overflowing sum. -/
example : trainEstimator (statsPolicy intSum (id : Int → Int) (id : Stats Int Rat → _))
      (statsConfig 0 (fun _ => true)) 9 (StatsState.new (intSum (F := Rat)))
      [[some (2 ^ 62), some (2 ^ 62)]] [[]] = (.error .runtimeError, [[]]) := by
  have h := C23_integers_partial (id : Int → Int) (id : Stats Int Rat → _) (fun _ => true) (fun _ => rfl) 0 9
    (by decide) (by decide) [[some (2 ^ 62), some (2 ^ 62)]]
    (by intro b hb; simp at hb; subst hb; simp) [[]] (by simp) rfl
    (by intro v hv; simp at hv; subst hv; decide)
  exact h.1 (.inr fun hh => by
    have := hh [2 ^ 62, 2 ^ 62] (List.prefix_refl _)
    revert this
    decide)

end Feat
