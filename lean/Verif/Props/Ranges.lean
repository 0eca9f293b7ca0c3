import Verif.Model.Numeric
import Verif.Spec.Series
import Verif.Proofs.Components
import Mathlib.Data.List.Induction
import Mathlib.Data.Int.Order.Basic
/-
C24 minimum and maximum; C25 time frequencies.
-/
namespace Feat
variable {V T α : Type}

private theorem minmax_fold [LinearOrder V] (lowest largest : V) (vs : List V)
    (hv : ∀ v ∈ vs, lowest ≤ v ∧ v ≤ largest) :
    let s := vs.foldl (fun (s : V × V) x => (if x < s.1 then x else s.1, if x > s.2 then x else s.2))
      (minMaxNew lowest largest)
    (vs = [] ∧ s = (largest, lowest)) ∨
      (s.1 ∈ vs ∧ s.2 ∈ vs ∧ (∀ v ∈ vs, s.1 ≤ v) ∧ (∀ v ∈ vs, v ≤ s.2)) := by
  induction vs using List.reverseRecOn with
  | nil => left; exact ⟨rfl, rfl⟩
  | append_singleton vs x ih =>
    right
    have ih := ih (fun v h => hv v (List.mem_append_left _ h))
    obtain ⟨hx1, hx2⟩ := hv x (by simp)
    simp only [List.foldl_append, List.foldl_cons, List.foldl_nil] at ih ⊢
    generalize vs.foldl (fun (s : V × V) x => (if x < s.1 then x else s.1, if x > s.2 then x else s.2))
      (minMaxNew lowest largest) = s at ih
    rcases ih with ⟨rfl, rfl⟩ | ⟨h1, h2, h3, h4⟩
    · simp only [List.nil_append, List.mem_singleton, forall_eq]
      have e1 : (if x < largest then x else largest) = x := by
        split
        · rfl
        · rename_i h; exact le_antisymm (not_lt.1 h) hx2
      have e2 : (if x > lowest then x else lowest) = x := by
        split
        · rfl
        · rename_i h; exact le_antisymm hx1 (not_lt.1 h)
      rw [e1, e2]
      exact ⟨rfl, rfl, le_refl _, le_refl _⟩
    · refine ⟨?_, ?_, ?_, ?_⟩
      · split <;> simp [h1]
      · split <;> simp [h2]
      · intro v hv
        rcases List.mem_append.1 hv with hv | hv
        · split
          · rename_i hx; exact le_trans (le_of_lt hx) (h3 v hv)
          · exact h3 v hv
        · rw [List.mem_singleton.1 hv]
          split
          · exact le_refl _
          · rename_i hx; exact not_lt.1 hx
      · intro v hv
        rcases List.mem_append.1 hv with hv | hv
        · split
          · rename_i hx; exact le_trans (h4 v hv) (le_of_lt hx)
          · exact h4 v hv
        · rw [List.mem_singleton.1 hv]
          split
          · exact le_refl _
          · rename_i hx; exact not_lt.1 hx

private def mmStep [LinearOrder V] (val : T → V) (s : V × V) (x : Option T) : V × V :=
  match x with
  | none => s
  | some x => (if val x < s.1 then val x else s.1, if val x > s.2 then val x else s.2)

private theorem mm_fold [LinearOrder V] (val : T → V) (xs : List (Option T)) (s : V × V) :
    xs.foldl (mmStep val) s = (xs.filterMap (fun x => x.map val)).foldl
      (fun (s : V × V) x => (if x < s.1 then x else s.1, if x > s.2 then x else s.2)) s := by
  induction xs generalizing s with
  | nil => rfl
  | cons x xs ih => cases x <;> simp [mmStep, ih]

/-- **C24** (part: values between the numeric limits, i.e. all integers and all finite floating point values;
see `C24_infinity`) After training on any batches the published minimum and maximum occur among the non-null values and
bound all of them; with no values training throws `invalid_argument`. -/
theorem C24_min_max_partial [LinearOrder V] (lowest largest : V) (hlt : lowest < largest)
    (wrap : V → V → α) (kind : α → Bool) (hkind : ∀ a b, kind (wrap a b) = true)
    (val : T → V)
    (col cap : Nat) (hcap : 0 < cap) (batches : List (List (Option T))) (hb : NoEmptyBatch batches)
    (maps : AnnotationMaps α) (hcol : col < maps.length)
    (hnone : getAnnotation kind maps col "MinMaxEstimator" = .ok none)
    (hv : ∀ x, some x ∈ batches.flatten → lowest ≤ val x ∧ val x ≤ largest) :
    let values := (batches.flatten.take cap).filterMap (fun x => x.map val)
    (values = [] →
      trainEstimator (minMaxPolicy val wrap) (minMaxConfig col kind) cap (minMaxNew lowest largest) batches maps
        = (.error .invalidArgument, maps)) ∧
    (values ≠ [] → ∃ lo hi maps',
      trainEstimator (minMaxPolicy val wrap) (minMaxConfig col kind) cap (minMaxNew lowest largest) batches maps
        = (.ok (), maps') ∧
      getAnnotation kind maps' col "MinMaxEstimator" = .ok (some (wrap lo hi)) ∧
      lo ∈ values ∧ hi ∈ values ∧ ∀ v ∈ values, lo ≤ v ∧ v ≤ hi) := by
  intro values
  have ht := trainEstimator_fold (minMaxPolicy val wrap) (mmStep val) (fun _ _ => rfl)
    (fun _ _ => rfl) (minMaxConfig col kind) cap hcap (minMaxNew lowest largest) batches hb maps hcol rfl hnone
  have hf := minmax_fold lowest largest values (fun v h => by
    obtain ⟨x, hx, hxv⟩ := List.mem_filterMap.1 h
    cases x with
    | none => simp at hxv
    | some x => simp at hxv; subst hxv; exact hv x (List.mem_of_mem_take hx))
  rw [mm_fold] at ht
  simp only at hf
  rw [show (batches.flatten.take cap).filterMap (fun x => x.map val) = values from rfl] at ht
  generalize values.foldl (fun (s : V × V) x => (if x < s.1 then x else s.1, if x > s.2 then x else s.2))
      (minMaxNew lowest largest) = s at hf ht
  rcases hf with ⟨hn, rfl⟩ | ⟨h1, h2, h3, h4⟩
  · refine ⟨fun _ => ?_, fun h => absurd hn h⟩
    simp only [minMaxPolicy] at ht
    rw [if_pos hlt] at ht
    exact ht
  · refine ⟨fun h => by rw [h] at h1; simp at h1, fun _ => ?_⟩
    have hle : ¬ s.1 > s.2 := not_lt.2 (h3 _ h2)
    simp only [minMaxPolicy] at ht
    rw [if_neg hle] at ht
    exact ⟨s.1, s.2, _, ht.trans (addAnnotation_ok maps _ col _ hcol).1,
      getAnnotation_add_self maps _ col _ _ (hkind _ _) hnone, h1, h2, fun v hv => ⟨h3 v hv, h4 v hv⟩⟩

/-- **C24** fails for an infinite floating point value (a value above the largest finite one): trained on it
alone, the published minimum is the largest finite value, which is not in the data. -/
theorem C24_infinity [LinearOrder V] (lowest largest inf : V) (hlt : lowest < largest) (hinf : largest < inf)
    (wrap : V → V → α) (kind : α → Bool) (hkind : ∀ a b, kind (wrap a b) = true)
    (col cap : Nat) (hcap : 0 < cap) (maps : AnnotationMaps α) (hcol : col < maps.length)
    (hnone : getAnnotation kind maps col "MinMaxEstimator" = .ok none) :
    ∃ maps',
      trainEstimator (minMaxPolicy id wrap) (minMaxConfig col kind) cap (minMaxNew lowest largest) [[some inf]] maps
        = (.ok (), maps') ∧
      getAnnotation kind maps' col "MinMaxEstimator" = .ok (some (wrap largest inf)) := by
  have ht := trainEstimator_fold (minMaxPolicy id wrap) (mmStep id) (fun _ _ => rfl)
    (fun _ _ => rfl) (minMaxConfig col kind) cap hcap (minMaxNew lowest largest) [[some inf]]
    (by intro b hb; simp at hb; subst hb; simp) maps hcol rfl hnone
  have htk : ([[some inf]] : List (List (Option V))).flatten.take cap = [some inf] := by
    cases cap with
    | zero => omega
    | succ c => simp
  rw [htk] at ht
  simp only [List.foldl_cons, List.foldl_nil, minMaxNew, minMaxPolicy, mmStep, id] at ht
  rw [if_neg (not_lt.2 (le_of_lt hinf)), if_pos (lt_trans hlt hinf), if_neg (not_lt.2 (le_of_lt hinf))] at ht
  exact ⟨_, ht.trans (addAnnotation_ok maps _ col _ hcol).1,
    getAnnotation_add_self maps _ col _ _ (hkind _ _) hnone⟩

/-! Non-vacuity: `int8_t` values. -/
example : ∃ lo hi maps', trainEstimator (minMaxPolicy id Prod.mk) (minMaxConfig 0 (fun _ => true)) 9
      (minMaxNew (-128 : Int) 127) [[some 3, some (-5)], [none, some 127]] [[]] = (.ok (), maps') ∧
    getAnnotation (fun _ => true) maps' 0 "MinMaxEstimator" = .ok (some (lo, hi)) ∧
    lo ∈ [(3 : Int), -5, 127] ∧ hi ∈ [(3 : Int), -5, 127] ∧ ∀ v ∈ [(3 : Int), -5, 127], lo ≤ v ∧ v ≤ hi :=
  (C24_min_max_partial (-128 : Int) 127 (by decide) Prod.mk (fun _ => true) (fun _ _ => rfl) id 0 9 (by decide)
    [[some 3, some (-5)], [none, some 127]] (by intro b hb; simp at hb; rcases hb with rfl | rfl <;> simp) [[]] (by simp) rfl
    (by intro v hv; simp at hv; rcases hv with rfl | rfl | rfl <;> decide)).2 (by simp)

/-! ### Frequencies -/

/-- `m` is the smallest element of the list. -/
def IsLeast' (l : List Int) (m : Int) : Prop := m ∈ l ∧ ∀ x ∈ l, m ≤ x

private theorem foldl_min (l : List Int) (f : Int) :
    let m := l.foldl (fun f d => if d ≤ f then d else f) f
    (m = f ∨ m ∈ l) ∧ m ≤ f ∧ ∀ x ∈ l, m ≤ x := by
  induction l generalizing f with
  | nil => simp
  | cons d l ih =>
    obtain ⟨h1, h2, h3⟩ := ih (if d ≤ f then d else f)
    simp only [List.foldl_cons]
    generalize l.foldl (fun f d => if d ≤ f then d else f) (if d ≤ f then d else f) = m at h1 h2 h3
    refine ⟨?_, ?_, ?_⟩
    · rcases h1 with h1 | h1
      · split at h1
        · right; rw [h1]; simp
        · left; exact h1
      · right; exact List.mem_cons_of_mem _ h1
    · split at h2 <;> omega
    · intro x hx
      rcases List.mem_cons.1 hx with rfl | hx
      · split at h2 <;> omega
      · exact h3 x hx

private theorem freq_run (wrap : Int → α) (xs : List Int) : ∀ (f last : Int),
    (∀ a ∈ last :: xs, ∀ b ∈ last :: xs, b - a < durationMax) →
    ((last :: xs).IsChain (· < ·) → ∃ l, (frequencyPolicy wrap).fitAll xs (f, some last)
      = (.ok (), ((gaps (last :: xs)).foldl (fun f d => if d ≤ f then d else f) f, some l))) ∧
    (¬ (last :: xs).IsChain (· < ·) →
      ((frequencyPolicy wrap).fitAll xs (f, some last)).1 = .error .runtimeError) := by
  induction xs with
  | nil =>
    intro f last _
    exact ⟨fun _ => ⟨last, rfl⟩, fun h => absurd (List.IsChain.singleton _) h⟩
  | cons x xs ih =>
    intro f last hs
    have ih := ih (if x - last ≤ f then x - last else f) x
      (fun a ha b hb => hs a (List.mem_cons_of_mem _ ha) b (List.mem_cons_of_mem _ hb))
    have hg : gap last x = .ok (x - last) := by
      unfold gap
      have := hs last (by simp) x (by simp)
      rw [if_neg (by omega)]
    simp only [Policy.fitAll]
    by_cases hlt : last < x
    · have hf : (frequencyPolicy wrap).fit x (f, some last)
          = (.ok (), (if x - last ≤ f then x - last else f, some x)) := by
        simp only [frequencyPolicy]
        rw [if_neg (by omega)]
        simp only [hg]
      rw [hf]
      simp only [List.isChain_cons_cons, hlt, true_and, gaps, List.foldl_cons]
      exact ih
    · have hf : (frequencyPolicy wrap).fit x (f, some last) = (.error .runtimeError, (f, some last)) := by
        simp only [frequencyPolicy]
        rw [if_pos (by omega)]
      rw [hf]
      simp only [List.isChain_cons_cons, hlt, false_and, false_implies, not_false_eq_true, true_implies,
        and_self]

private theorem gaps_lt (xs : List Int) (hs : ∀ a ∈ xs, ∀ b ∈ xs, b - a < durationMax) :
    ∀ d ∈ gaps xs, d < durationMax := by
  induction xs with
  | nil => simp [gaps]
  | cons a xs ih =>
    cases xs with
    | nil => simp [gaps]
    | cons b xs =>
      intro d hd
      simp only [gaps] at hd
      rcases List.mem_cons.1 hd with rfl | hd
      · exact hs a (by simp) b (by simp)
      · exact ih (fun a ha b hb => hs a (List.mem_cons_of_mem _ ha) b (List.mem_cons_of_mem _ hb)) d hd

/-- **C25** (part: time points spanning less than the longest duration; see `C25_long_gap`) After training on
the time points: at least two strictly increasing ones publish the smallest difference of consecutive ones;
fewer, or time points that are not strictly increasing, throw `runtime_error`. -/
theorem C25_frequency_partial (wrap : Int → α) (kind : α → Bool) (hkind : ∀ a, kind (wrap a) = true)
    (col cap : Nat) (hcap : 0 < cap) (batches : List (List Int)) (hb : NoEmptyBatch batches)
    (maps : AnnotationMaps α) (hcol : col < maps.length)
    (hnone : getAnnotation kind maps col "FrequencyEstimator" = .ok none)
    (hspan : ∀ a ∈ batches.flatten, ∀ b ∈ batches.flatten, b - a < durationMax) :
    let times := batches.flatten.take cap
    ((2 ≤ times.length ∧ times.Pairwise (· < ·)) → ∃ f maps',
      trainEstimator (frequencyPolicy wrap) (frequencyConfig col kind) cap (durationMax, none) batches maps
        = (.ok (), maps') ∧
      getAnnotation kind maps' col "FrequencyEstimator" = .ok (some (wrap f)) ∧ IsLeast' (gaps times) f) ∧
    (¬ (2 ≤ times.length ∧ times.Pairwise (· < ·)) →
      trainEstimator (frequencyPolicy wrap) (frequencyConfig col kind) cap (durationMax, none) batches maps
        = (.error .runtimeError, maps)) := by
  intro times
  have ht := trainEstimator_run (frequencyPolicy wrap) (fun _ _ => rfl) (frequencyConfig col kind) cap hcap
    (durationMax, none) batches hb maps hcol rfl hnone
  have hsp : ∀ a ∈ times, ∀ b ∈ times, b - a < durationMax :=
    fun a ha b hb => hspan a (List.mem_of_mem_take ha) b (List.mem_of_mem_take hb)
  rw [show batches.flatten.take cap = times from rfl] at ht
  rcases hx : times with _ | ⟨x, xs⟩
  · rw [hx] at ht
    refine ⟨fun h => by simp at h, fun _ => ?_⟩
    rw [ht]
    rfl
  · rw [hx] at ht hsp
    simp only [Policy.fitAll] at ht
    have hf : (frequencyPolicy wrap).fit x (durationMax, none) = (.ok (), (durationMax, some x)) := rfl
    rw [hf] at ht
    simp only at ht
    have hr := freq_run wrap xs durationMax x hsp
    rw [List.isChain_iff_pairwise] at hr
    by_cases hpw : (x :: xs).Pairwise (· < ·)
    · obtain ⟨l, hl⟩ := hr.1 hpw
      rw [hl] at ht
      simp only at ht
      have hm := foldl_min (gaps (x :: xs)) durationMax
      simp only at hm
      have hlt := gaps_lt (x :: xs) hsp
      rcases xs with _ | ⟨y, ys⟩
      · refine ⟨fun h => by simp at h, fun _ => ?_⟩
        rw [ht]
        rfl
      · refine ⟨fun _ => ?_, fun h => absurd ⟨by simp, hpw⟩ h⟩
        generalize (gaps (x :: y :: ys)).foldl (fun f d => if d ≤ f then d else f) durationMax = m at hm ht
        have h1 := hm.2.2 (y - x) (by simp [gaps])
        have h2 := hlt (y - x) (by simp [gaps])
        have hne : m ≠ durationMax := by omega
        simp only [frequencyPolicy] at ht
        rw [if_neg hne] at ht
        refine ⟨m, _, ht.trans (addAnnotation_ok maps _ col _ hcol).1,
          getAnnotation_add_self maps _ col _ _ (hkind _) hnone, ?_, hm.2.2⟩
        rcases hm.1 with h | h
        · exact absurd h hne
        · exact h
    · refine ⟨fun h => absurd h.2 hpw, fun _ => ?_⟩
      have h1 := hr.2 hpw
      rw [ht]
      rcases hf : (frequencyPolicy wrap).fitAll xs (durationMax, some x) with ⟨r, s⟩
      rw [hf] at h1
      simp only at h1
      subst h1
      rfl

/-- **C25** fails for very long gaps: two increasing time points exactly the longest duration (2⁶³ − 1 ticks)
apart are rejected with `runtime_error`, further apart is undefined behaviour. -/
theorem C25_long_gap (wrap : Int → α) (kind : α → Bool) (a b : Int) (hab : durationMax ≤ b - a)
    (col cap : Nat) (hcap : 2 ≤ cap) (maps : AnnotationMaps α) (hcol : col < maps.length)
    (hnone : getAnnotation kind maps col "FrequencyEstimator" = .ok none) :
    (trainEstimator (frequencyPolicy wrap) (frequencyConfig col kind) cap (durationMax, none) [[a, b]] maps).1
      = .error (if b - a = durationMax then .runtimeError else .ub) := by
  rw [trainEstimator_run (frequencyPolicy wrap) (fun _ _ => rfl) (frequencyConfig col kind) cap (by omega)
    (durationMax, none) [[a, b]] (by intro b hb; simp at hb; subst hb; simp) maps hcol rfl hnone]
  have htk : ([[a, b]] : List (List Int)).flatten.take cap = [a, b] := by
    rw [List.take_of_length_le] <;> simp [hcap]
  have hd : 0 < durationMax := by decide
  rw [htk]
  simp only [Policy.fitAll, frequencyPolicy]
  rw [if_neg (by omega)]
  unfold gap
  by_cases h : b - a = durationMax
  · rw [if_neg (by omega), if_pos h, h]
    simp
  · rw [if_pos (by omega), if_neg h]

/-! Non-vacuity: differences 4, 2, 5. -/
example : ∃ f maps', trainEstimator (frequencyPolicy id) (frequencyConfig 0 (fun _ => true)) 9
      (durationMax, none) [[1, 5], [7, 12]] [[]] = (.ok (), maps') ∧
    getAnnotation (fun _ => true) maps' 0 "FrequencyEstimator" = .ok (some f) ∧ IsLeast' [4, 2, 5] f :=
  (C25_frequency_partial id (fun _ => true) (fun _ => rfl) 0 9 (by decide) [[1, 5], [7, 12]]
    (by intro b hb; simp at hb; rcases hb with rfl | rfl <;> simp) [[]] (by simp) rfl
    (by decide +kernel)).1 (by decide)

end Feat
