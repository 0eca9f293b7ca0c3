import Verif.Proofs.FloatStats
/-
Statistics of an integer column: the sum is an `int64_t`, the average a `double`.
-/
namespace Feat.FloatStats
open FloatText FloatArith FloatNorms FloatScalers
variable {ι V : Type} [CInt V]

/-- A number fits `int64_t`. -/
def Fits (z : Int) : Prop := -2 ^ 63 ≤ z ∧ z < 2 ^ 63

theorem sumStep_eq {s v : Int} (hs : Fits s) (hv : Fits v) :
    (Fits (s + v) → intSumStep s v = .ok (s + v)) ∧ (¬ Fits (s + v) → intSumStep s v = .error .runtimeError) := by
  unfold Fits at *
  have hw : wrap64 v = v := by unfold wrap64; omega
  unfold intSumStep
  simp only [hw]
  constructor
  · intro h
    split_ifs <;> first | rfl | omega
  · intro h
    split_ifs <;> first | rfl | omega

theorem total_int (get : ι → Option V) (vs : List V) : ∀ s : Int, Fits s → (∀ v ∈ vs, Fits (CInt.toInt v)) →
    ((∀ p, p <+: vs → Fits (s + (p.map CInt.toInt).sum)) →
      total (intStat V get) vs s = (.ok (), s + (vs.map CInt.toInt).sum)) ∧
    ((¬ ∀ p, p <+: vs → Fits (s + (p.map CInt.toInt).sum)) → ∃ t, total (intStat V get) vs s = (.error .runtimeError, t)) := by
  induction vs with
  | nil =>
    intro s hs _
    refine ⟨fun _ => by simp [total], fun h => ?_⟩
    exfalso
    apply h
    intro p hp
    rw [List.prefix_nil.1 hp]
    simpa using hs
  | cons x vs ih =>
    intro s hs hv
    have hx := hv x (by simp)
    obtain ⟨h1, h2⟩ := sumStep_eq hs hx
    by_cases hf : Fits (s + CInt.toInt x)
    · have hst : (intStat V get).step s x = (.ok (), s + CInt.toInt x) := by simp only [intStat, h1 hf]
      obtain ⟨i1, i2⟩ := ih (s + CInt.toInt x) hf (fun v hm => hv v (List.mem_cons_of_mem _ hm))
      have hiff : (∀ p, p <+: x :: vs → Fits (s + (p.map CInt.toInt).sum)) ↔
          ∀ p, p <+: vs → Fits (s + CInt.toInt x + (p.map CInt.toInt).sum) := by
        constructor
        · intro h p hp
          have := h (x :: p) (List.cons_prefix_cons.2 ⟨rfl, hp⟩)
          rwa [List.map_cons, List.sum_cons, ← add_assoc] at this
        · intro h p hp
          cases p with
          | nil => simpa using hs
          | cons y p =>
            obtain ⟨rfl, hp'⟩ := List.cons_prefix_cons.1 hp
            rw [List.map_cons, List.sum_cons, ← add_assoc]
            exact h p hp'
      rw [hiff]
      simp only [total, hst, List.map_cons, List.sum_cons, ← add_assoc]
      exact ⟨i1, i2⟩
    · have hst : (intStat V get).step s x = (.error .runtimeError, s) := by simp only [intStat, h2 hf]
      refine ⟨fun h => ?_, fun _ => ⟨s, by simp only [total, hst]⟩⟩
      exfalso
      apply hf
      have := h [x] (by simp)
      simpa using this

theorem lt_of_keys {T : Type} [FloType T] {x y : T} (h : key y ≤ key x) : FloatArith.lt x y = false := by
  unfold FloatArith.lt
  rw [decide_eq_false (not_lt.2 h), Bool.and_false]

/-- Finite numbers around. -/
theorem finite_between {T : Type} [FloType T] [Lawful T] {x y z : T} (hx : Finite x) (hz : Finite z) (h1 : key x ≤ key y)
    (h2 : key y ≤ key z) : Finite y := by
  rw [finite_key] at hx hz ⊢
  generalize (fmt T).inf = I at *
  omega

/-- `commit`. -/
theorem commit_int (get : ι → Option V) {vs : List V} {lo hi : V} {s : Int} (hne : vs ≠ []) (hlen : vs.length ≤ 2 ^ 60)
    (hlo : Least (fun x => (CInt.toInt x : ℚ)) vs lo) (hhi : Greatest (fun x => (CInt.toInt x : ℚ)) vs hi)
    (hv : ∀ v ∈ vs, Fits (CInt.toInt v)) (hs : s = (vs.map CInt.toInt).sum) (hfit : Fits s) :
    ∃ a, commit (intStat V get) ⟨some (lo, hi), vs.length, s⟩ = .ok ⟨lo, hi, vs.length, s, a⟩ ∧ Finite a ∧
      |value a - mean (vs.map fun x => (CInt.toInt x : ℚ))| ≤ |mean (vs.map fun x => (CInt.toInt x : ℚ))| * (1 / 2 ^ 52) ∧
      key (ofInt (CInt.toInt lo) : F64) ≤ key a ∧ key a ≤ key (ofInt (CInt.toInt hi) : F64) := by
  have hn0 : vs.length ≠ 0 := by simpa using hne
  have hnq : (0 : ℚ) < vs.length := by exact_mod_cast Nat.pos_of_ne_zero hn0
  obtain ⟨hcf, hcv⟩ := count_exact (n := vs.length) (by omega)
  have hex : ∀ z : Int, Fits z → Finite (ofInt z : F80) ∧ value (ofInt z : F80) = z := by
    intro z hz
    unfold Fits at hz
    exact ofInt_exact (T := F80) (by rw [show (fmt F80).frac = 63 from rfl]; omega)
  obtain ⟨hsf, hsv⟩ := hex s hfit
  obtain ⟨hlf, hlv⟩ := hex _ (hv lo hlo.1)
  obtain ⟨hhf, hhv⟩ := hex _ (hv hi hhi.1)
  have hkd := key_div hsf hcf (by rw [hcv]; exact ne_of_gt hnq)
  rw [hcv, hsv] at hkd
  have hsum : (s : ℚ) = (vs.map fun x => (CInt.toInt x : ℚ)).sum := by
    rw [hs, Int.cast_list_sum, List.map_map]
    rfl
  have hmean : mean (vs.map fun x => (CInt.toInt x : ℚ)) = (s : ℚ) / vs.length := by
    unfold mean
    rw [← hsum, List.length_map]
  have hle : ∀ q ∈ vs.map (fun x => (CInt.toInt x : ℚ)), q ≤ (CInt.toInt hi : ℚ) := by
    intro q hq
    obtain ⟨v, hm, rfl⟩ := List.mem_map.1 hq
    exact hhi.2 v hm
  have hge : ∀ q ∈ vs.map (fun x => -(CInt.toInt x : ℚ)), q ≤ -(CInt.toInt lo : ℚ) := by
    intro q hq
    obtain ⟨v, hm, rfl⟩ := List.mem_map.1 hq
    have := hlo.2 v hm
    simp only at this ⊢
    linarith
  have q2 : (s : ℚ) / vs.length ≤ CInt.toInt hi := by
    have := sum_bound hle
    rw [List.length_map, ← hsum] at this
    rw [div_le_iff₀ hnq]
    linarith
  have q1 : (CInt.toInt lo : ℚ) ≤ (s : ℚ) / vs.length := by
    have := sum_bound hge
    have e : (vs.map fun x => -(CInt.toInt x : ℚ)).sum = -(vs.map fun x => (CInt.toInt x : ℚ)).sum := by
      clear * -
      induction vs with
      | nil => simp
      | cons x vs ih => simp only [List.map_cons, List.sum_cons, ih]; ring
    rw [List.length_map, e, ← hsum] at this
    rw [le_div_iff₀ hnq]
    linarith
  rw [hmean]
  obtain ⟨d, hd⟩ : ∃ d, div (ofInt s : F80) (ofInt (vs.length : Int)) = d := ⟨_, rfl⟩
  rw [hd] at hkd
  have k1 : key (ofInt (CInt.toInt lo) : F80) ≤ key d := by
    rw [hkd, ← rnd_value hlf, hlv]
    exact rnd_mono (Lawful.good (T := F80)) q1
  have k2 : key d ≤ key (ofInt (CInt.toInt hi) : F80) := by
    rw [hkd, ← rnd_value hhf, hhv]
    exact rnd_mono (Lawful.good (T := F80)) q2
  have hdf : Finite d := finite_between hlf hhf k1 k2
  have v1 : (CInt.toInt lo : ℚ) ≤ value d := by rw [← hlv, value_key, value_key d, fval_le]; exact k1
  have v2 : value d ≤ (CInt.toInt hi : ℚ) := by rw [← hhv, value_key, value_key (ofInt _), fval_le]; exact k2
  have hka : key (FloatArith.cast d : F64) = rnd (fmt F64) (value d) := key_cast hdf
  have c1 : key (ofInt (CInt.toInt lo) : F64) ≤ key (FloatArith.cast d : F64) := by
    rw [hka, key_ofInt]
    exact rnd_mono (Lawful.good (T := F64)) v1
  have c2 : key (FloatArith.cast d : F64) ≤ key (ofInt (CInt.toInt hi) : F64) := by
    rw [hka, key_ofInt]
    exact rnd_mono (Lawful.good (T := F64)) v2
  have hfin64 : ∀ z : Int, Fits z → Finite (ofInt z : F64) := by
    intro z hz
    rw [finite_key, key_ofInt]
    refine rnd_finite (lt_of_le_of_lt ?_ (lt_of_lt_of_le (show (2 : ℚ) ^ 64 < 2 ^ 100 by norm_num) ?_))
    · unfold Fits at hz
      rw [abs_le]
      constructor
      · have : -(2 ^ 64 : Int) ≤ z := by omega
        exact_mod_cast this
      · have : z ≤ 2 ^ 64 := by omega
        exact_mod_cast this
    · unfold tooLarge
      rw [show Binary.frac F64 = 52 from rfl, show ((bias F64 : Nat) : Int) = 1023 by decide +kernel,
        show (2 : ℚ) ^ (1023 - ((52 : Nat) : Int) - 1 : Int) = 2 ^ 970 from by
          rw [show (1023 - ((52 : Nat) : Int) - 1 : Int) = ((970 : Nat) : Int) by norm_num, zpow_natCast]]
      have h1 : (2 : ℚ) ^ 100 ≤ 2 ^ 970 := pow_le_pow_right₀ (by norm_num) (by norm_num)
      have h2 : (0 : ℚ) < 2 ^ 100 := by positivity
      generalize (2 : ℚ) ^ 970 = B at *
      generalize (2 : ℚ) ^ 100 = C at *
      norm_num
      linarith
  have haf : Finite (FloatArith.cast d : F64) := finite_between (hfin64 _ (hv lo hlo.1)) (hfin64 _ (hv hi hhi.1)) c1 c2
  refine ⟨FloatArith.cast d, ?_, haf, ?_, c1, c2⟩
  · have hord : (intStat V get).lt hi lo = false := by
      have := hlo.2 hi hhi.1
      simp only [Int.cast_le] at this
      simp only [intStat]
      rw [decide_eq_false_iff_not]
      omega
    have hchk : (FloatArith.lt ((intStat V get).toD hi) ((intStat V get).average s vs.length) ||
        FloatArith.lt ((intStat V get).average s vs.length) ((intStat V get).toD lo)) = false := by
      have e : (intStat V get).average s vs.length = FloatArith.cast d := by
        rw [← hd]; simp only [intStat]
      rw [e]
      rw [Bool.or_eq_false_iff]
      exact ⟨lt_of_keys c2, lt_of_keys c1⟩
    unfold commit
    simp only
    rw [if_neg hn0, if_neg (by rw [hord]; simp), if_neg (by simp [intStat]), if_neg (by rw [hchk]; simp)]
    simp only [intStat, hd]
  · have h3 := twice_error hkd hdf hka haf
    by_cases h0 : s = 0
    · have : value d = 0 := by
        rw [value_key, hkd, h0]
        simp [rnd_zero, fval_zero]
      have h4 : value (FloatArith.cast d : F64) = 0 := by
        rw [value_key, hka, this, rnd_zero, fval_zero]
      rw [h4, h0]
      simp
    · have hq : 1 / 2 ^ 60 ≤ |(s : ℚ) / vs.length| := by
        rw [abs_div, abs_of_pos hnq, div_le_div_iff₀ (by positivity) hnq, one_mul]
        have h5 : (1 : ℚ) ≤ |(s : ℚ)| := by
          rw [← Int.cast_abs]
          exact_mod_cast Int.one_le_abs h0
        have h6 : (vs.length : ℚ) ≤ 2 ^ 60 := by exact_mod_cast hlen
        have h8 := mul_le_mul_of_nonneg_right h5 (show (0 : ℚ) ≤ 2 ^ 60 by positivity)
        linarith
      refine le_trans h3 ?_
      have h7 : (1 : ℚ) / 2 ^ 1074 ≤ 1 / 2 ^ 160 :=
        div_le_div_of_nonneg_left (by norm_num) (by positivity) (pow_le_pow_right₀ (by norm_num) (by norm_num))
      generalize (1 : ℚ) / 2 ^ 1074 = w at *
      generalize |(s : ℚ) / vs.length| = Q at *
      norm_num at *
      linarith

end Feat.FloatStats
