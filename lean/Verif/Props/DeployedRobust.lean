import Verif.Props.DeployedFeaturizers
import Verif.Props.Deployable
import Verif.Props.FloatRobust
import Verif.Model.CRobust
/-
**C105**, **C106** Robust scaler: trained in one process and used in another.
-/
namespace Feat.CApi
open FloatStats FloatNorms FloatMedian
variable {ι V S T : Type}

private theorem robust_trips [Scalar T] (t : FloRobust T) : RoundTrips (robustAr T) t := by
  obtain ⟨bs, h1, h2, h3⟩ := library_roundTrips (robustScaler T) (.robustScaler T) (t.median, t.scale) (t.median, t.scale) rfl
    ⟨trivial, trivial⟩
  have h2 : Reads (robustScaler T).load bs (t.median, t.scale) := h2
  exact ⟨bs, h1, Reads.map (fun p : T × T => (⟨p.1, p.2⟩ : FloRobust T)) h2, Truncs.map h2 h3⟩

private theorem robust_bytes [Scalar T] {t : FloRobust T} {b : List UInt8} (h : Writes ((robustAr T).save t) b) :
    b.length = 4 + 2 * Scalar.size T := by
  have hv : Writes writeVersion [1, 0, 0, 0] :=
    Writes.bind (b₁ := [1, 0]) (b₂ := [0, 0]) (Scalar.writes (1 : UInt16)) (Scalar.writes (0 : UInt16))
  rw [writes_unique h (Writes.bind hv (Codec.writes (t.median, t.scale) ⟨trivial, trivial⟩)), List.length_append]
  show 4 + (scalarBytes t.median ++ scalarBytes t.scale).length = _
  rw [List.length_append, scalarBytes_length, scalarBytes_length]
  omega

section
variable [FloatArith.FloType T] [Scalar T] {k : RobustInput ι V S T} {centering : Bool} {qMin qMax : F32} {X : Xf (FloRobust T) ι ι}
  {host host' : Endian} {space space' : Nat} {place place' : List UInt8 → Nat} {bs : List (List ι)}

private theorem accepted (h : FloatMedian.checkRange qMin qMax = .ok ()) :
    robustScalerIn k centering qMin qMax X host space place = robustPipeline k centering qMin qMax X host space place := by
  unfold robustScalerIn
  rw [h]

/-- The arguments of an estimator that exists are in order. -/
private theorem in_order {F' : Featurizer _ ι (List (Option (FloRobust T))) T} {room : List UInt8 → Prop}
    {qs₁ qs₂ : List (Ask ι)} {as₁ as₂ : List (Option (List T))}
    (d : Deployment (robustScalerIn k centering qMin qMax X host space place) F' room bs qs₁ as₁ qs₂ as₂) :
    FloatMedian.checkRange qMin qMax = .ok () := by
  obtain ⟨h₀, hl₁, hc, s₁, hd₁, hs, hl₂, ht, s₂, hd₂, hl₃, hsave, g₀, hl₄, hroom, hload, s₃, hd₃⟩ := d
  obtain ⟨s, m, e, ts, h1, h2, h3⟩ := standard_made h₀ hl₁ hc s₁ hd₁ hs hl₂ ht
  rcases hr : FloatMedian.checkRange qMin qMax with e | u
  · unfold robustScalerIn at h1
    rw [hr] at h1
    cases h1
  · rfl

private theorem robust_deployed {t : FloRobust T} {qs₁ qs₂ : List (Ask ι)} {as₁ as₂ : List (Option (List T))}
    (hy : FeaturizerYields X (FloatMedian.robustComponents k 0 (2 ^ 64 - 1)) 2 (FloatMedian.makeRobust k centering qMin qMax 0) bs [[]] (.ok t))
    (d : Deployment (robustPipeline k centering qMin qMax X host space place) (robustPipeline k centering qMin qMax X host' space' place')
      (fun b => Roomy space' (place' b) b.length) bs qs₁ as₁ qs₂ as₂) :
    as₁ = repliesOf (fun x => some [execRobust k t x]) qs₁ ∧ as₂ = repliesOf (fun x => some [execRobust k t x]) qs₂ :=
  deployed_function (c := robustAr T) hy (robust_trips t) d

private theorem robust_deploys {t : FloRobust T} (hq : FloatMedian.checkRange qMin qMax = .ok ())
    (hy : FeaturizerYields X (FloatMedian.robustComponents k 0 (2 ^ 64 - 1)) 2 (FloatMedian.makeRobust k centering qMin qMax 0) bs [[]] (.ok t))
    (behind : List UInt8) (hroom : ∀ b : List UInt8, b.length = 4 + 2 * Scalar.size T + behind.length → Roomy space' (place' b) b.length)
    (qs₁ qs₂ : List (Ask ι)) (h₁ : qs₁.length < 2 ^ 63) (h₂ : qs₂.length < 2 ^ 63) :
    ∃ as₁ as₂, Deployment (robustScalerIn k centering qMin qMax X host space place)
      (robustScalerIn k centering qMin qMax X host' space' place')
      (fun b => Roomy space' (place' b) b.length) bs qs₁ as₁ qs₂ as₂ := by
  rw [accepted hq, accepted hq]
  refine C106_deploys (c := robustAr T) hy (robust_trips t) (fun x h => by cases h) behind (fun bytes hw => ?_) qs₁ qs₂ h₁ h₂
  have hb := robust_bytes hw
  refine ⟨fun hx => ?_, hroom _ (by rw [List.length_append, hb])⟩
  have := congrArg List.length hx
  rw [List.length_append, hb] at this
  simp at this
end

/-- **C105** (robust scaler of `float` and `double`, with C76) If a robust scaler was trained through the C interface of one process
and used in this and another one, then the quantiles were none or a range from 0 to 100, and no training value was infinite; if the
values are up to half of the largest number, then both processes subtract the median (or 0) and divide by the given part of the range of
the training values (or 1), up to the rounding of these operations. -/
theorem C105_robust {T : Type} [FloatArith.FloType T] [FloatArith.Lawful T] [FloatArith.Wider T FloatArith.F80] [Scalar T] {N : Nat}
    (hT : Column T N) {centering : Bool} {qMin qMax : F32} {X : Xf (FloRobust T) T T} {host host' : Endian} {space space' : Nat}
    {place place' : List UInt8 → Nat} {bs : List (List T)} {qs₁ qs₂ : List (Ask T)} {as₁ as₂ : List (Option (List T))}
    (hne : bs ≠ []) (hb : NoEmptyBatch bs) (hlen : bs.flatten.length ≤ 2 ^ 60) (l : List ℚ) (hl : l = numbers floNumber bs.flatten)
    (hmod : ∀ q ∈ l, 2 * |q| < FloatText.tooLarge T)
    (d : Deployment (robustScalerIn (floRobust T) centering qMin qMax X host space place)
      (robustScalerIn (floRobust T) centering qMin qMax X host' space' place')
      (fun b => Roomy space' (place' b) b.length) bs qs₁ as₁ qs₂ as₂) :
    ∃ range, Quantiles qMin qMax range ∧ (∀ x ∈ bs.flatten, ¬ FloatText.IsInf x) ∧ l ≠ [] ∧
    ∃ f : T → T, as₁ = repliesOf (fun x => some [f x]) qs₁ ∧ as₂ = repliesOf (fun x => some [f x]) qs₂ ∧
      ∃ m s, CentreAndSpread T (FloatMedian.smallest T) centering range l m s ∧
        Centred m s (fun x : T => ¬ FloatText.IsInf x) floNumber f := by
  have htake : bs.flatten.take (2 ^ 64 - 1) = bs.flatten := List.take_of_length_le (by omega)
  have hq := in_order d
  rw [accepted hq, accepted hq] at d
  obtain ⟨range, hab⟩ := (C76_arguments qMin qMax).2.1 hq
  have hinf : ∀ x ∈ bs.flatten, ¬ FloatText.IsInf x := by
    intro x hx hi
    have := C76_infinite centering qMin qMax 0 (2 ^ 64 - 1) (by decide) (by decide) bs hne hb [[]] (by simp) rfl rfl
      (by rw [htake]; exact ⟨x, hx, hi⟩) X
    obtain ⟨t, ht⟩ := C105_succeeds (c := robustAr T) this d
    cases ht
  obtain ⟨r, hy, -, h0, h1, -⟩ := C76_float_partial hT centering qMin qMax range hab 0 (2 ^ 64 - 1) (by decide) bs hne hb [[]] (by simp)
    rfl rfl (by rw [htake]; exact hinf) l (by rw [htake]; exact hl) (by
      rw [hl]
      exact (List.length_filterMap_le _ _).trans hlen) hmod
  obtain ⟨t, rfl⟩ := C105_succeeds (c := robustAr T) (hy X) d
  obtain ⟨h2, h3⟩ := robust_deployed (hy X) d
  exact ⟨range, hab, hinf, fun h => (by cases h0 h), _, h2, h3, h1 t rfl⟩

/-- **C106** (robust scaler of `float` and `double`, with C76) With quantiles in order, and if no training value is infinite or too
small beside the others, it can be deployed. -/
theorem C106_robust {T : Type} [FloatArith.FloType T] [FloatArith.Lawful T] [FloatArith.Wider T FloatArith.F80] [Scalar T] {N : Nat}
    (hT : Column T N) {centering : Bool} {qMin qMax : F32} {range : Option (ℚ × ℚ)} (hab : Quantiles qMin qMax range)
    {X : Xf (FloRobust T) T T} {host host' : Endian} {space space' : Nat}
    {place place' : List UInt8 → Nat} {bs : List (List T)}
    (hne : bs ≠ []) (hb : NoEmptyBatch bs) (hlen : bs.flatten.length ≤ 2 ^ 60) (hinf : ∀ x ∈ bs.flatten, ¬ FloatText.IsInf x)
    (l : List ℚ) (hl : l = numbers floNumber bs.flatten)
    (hmod : ∀ q ∈ l, 2 * |q| < FloatText.tooLarge T) (hl0 : l ≠ []) (hN : l.length ≤ N) (hnn : NoneNegligible (l.map fun q => |q|))
    (behind : List UInt8) (hroom : ∀ b : List UInt8, b.length = 4 + 2 * Scalar.size T + behind.length → Roomy space' (place' b) b.length)
    (qs₁ qs₂ : List (Ask T)) (h₁ : qs₁.length < 2 ^ 63) (h₂ : qs₂.length < 2 ^ 63) :
    ∃ as₁ as₂, Deployment (robustScalerIn (floRobust T) centering qMin qMax X host space place)
      (robustScalerIn (floRobust T) centering qMin qMax X host' space' place')
      (fun b => Roomy space' (place' b) b.length) bs qs₁ as₁ qs₂ as₂ := by
  have htake : bs.flatten.take (2 ^ 64 - 1) = bs.flatten := List.take_of_length_le (by omega)
  have hq := (C76_arguments qMin qMax).2.2 ⟨range, hab⟩
  obtain ⟨r, hy, -, -, -, h2, -⟩ := C76_float_partial hT centering qMin qMax range hab 0 (2 ^ 64 - 1) (by decide) bs hne hb [[]] (by simp)
    rfl rfl (by rw [htake]; exact hinf) l (by rw [htake]; exact hl) (by
      rw [hl]
      exact (List.length_filterMap_le _ _).trans hlen) hmod
  obtain ⟨t, rfl⟩ := h2 hl0 hN hnn
  exact robust_deploys hq (hy X) behind hroom qs₁ qs₂ h₁ h₂

/-- **C105** (robust scaler of integers, with C76) Likewise, for values that are numbers of the result type and a range whose width can
be computed. -/
theorem C105_robust_integers {V T : Type} [CInt V] [FloatArith.FloType T] [FloatArith.Lawful T] [Scalar T] {N : Nat} (hT : Column T N)
    {promotes centering : Bool} {qMin qMax : F32} {X : Xf (FloRobust T) V V} {host host' : Endian} {space space' : Nat}
    {place place' : List UInt8 → Nat} {bs : List (List V)} {qs₁ qs₂ : List (Ask V)} {as₁ as₂ : List (Option (List T))}
    (hne : bs ≠ []) (hb : NoEmptyBatch bs) (hlen : bs.flatten.length ≤ 2 ^ 60)
    (zs : List Int) (hzs : zs = bs.flatten.map CInt.toInt) (hv : ∀ z ∈ zs, -2 ^ 63 ≤ z ∧ z < 2 ^ 63)
    (hvT : ∀ z ∈ zs, z.natAbs ≤ 2 * 2 ^ (FloatArith.fmt T).frac)
    (hwidth : FloatText.IsNaN qMin ∨ promotes = true ∨ ∀ y ∈ zs, ∀ z ∈ zs, y ≤ z → CInt.lo V ≤ z - y ∧ z - y ≤ CInt.hi V)
    (d : Deployment (robustScalerIn (intRobust V promotes T) centering qMin qMax X host space place)
      (robustScalerIn (intRobust V promotes T) centering qMin qMax X host' space' place')
      (fun b => Roomy space' (place' b) b.length) bs qs₁ as₁ qs₂ as₂) :
    ∃ range, Quantiles qMin qMax range ∧ (∀ p, p <+: zs → -2 ^ 63 ≤ p.sum ∧ p.sum < 2 ^ 63) ∧
    ∃ f : V → T, as₁ = repliesOf (fun x => some [f x]) qs₁ ∧ as₂ = repliesOf (fun x => some [f x]) qs₂ ∧
      ∃ m s, CentreAndSpread T (1 / 2 ^ 149) centering range (zs.map fun z : Int => (z : ℚ)) m s ∧
        Centred m s (fun x : V => (CInt.toInt x).natAbs ≤ 2 * 2 ^ (FloatArith.fmt T).frac) (fun x => some (CInt.toInt x : ℚ)) f := by
  have htake : bs.flatten.take (2 ^ 64 - 1) = bs.flatten := List.take_of_length_le (by omega)
  have hq := in_order d
  rw [accepted hq, accepted hq] at d
  obtain ⟨range, hab⟩ := (C76_arguments qMin qMax).2.1 hq
  have hw : range = none ∨ promotes = true ∨ ∀ y ∈ zs, ∀ z ∈ zs, y ≤ z → CInt.lo V ≤ z - y ∧ z - y ≤ CInt.hi V := by
    rcases hwidth with hw | hw | hw
    · left
      rcases hab with ⟨-, -, h⟩ | ⟨h, -⟩
      · exact h
      · rw [← FloatArith.isNaN_iff] at hw
        rw [FloatArith.Finite.not_nan h] at hw
        cases hw
    · exact .inr (.inl hw)
    · exact .inr (.inr hw)
  have hzl : zs.length ≤ 2 ^ 60 := by
    rw [hzs, List.length_map]
    exact hlen
  obtain ⟨h0, h1⟩ := C76_integers_partial hT promotes centering qMin qMax range hab 0 (2 ^ 64 - 1) (by decide) bs hne hb [[]] (by simp)
    rfl rfl zs (by rw [htake]; exact hzs) hzl hv hvT hw
  by_cases h : zs ≠ [] ∧ ∀ p, p <+: zs → -2 ^ 63 ≤ p.sum ∧ p.sum < 2 ^ 63
  · obtain ⟨t, hy, g⟩ := h1 h
    obtain ⟨h2, h3⟩ := robust_deployed (hy X) d
    exact ⟨range, hab, h.2, _, h2, h3, g⟩
  · obtain ⟨t, ht⟩ := C105_succeeds (c := robustAr T) (h0 (by
      by_contra hn
      push Not at hn
      exact h ⟨hn.1, hn.2⟩) X) d
    cases ht

/-- **C106** (robust scaler of integers, with C76) Likewise, if there are values and none of their sums in order overflows. -/
theorem C106_robust_integers {V T : Type} [CInt V] [FloatArith.FloType T] [FloatArith.Lawful T] [Scalar T] {N : Nat} (hT : Column T N)
    {promotes centering : Bool} {qMin qMax : F32} {range : Option (ℚ × ℚ)} (hab : Quantiles qMin qMax range)
    {X : Xf (FloRobust T) V V} {host host' : Endian} {space space' : Nat}
    {place place' : List UInt8 → Nat} {bs : List (List V)}
    (hne : bs ≠ []) (hb : NoEmptyBatch bs) (hlen : bs.flatten.length ≤ 2 ^ 60)
    (zs : List Int) (hzs : zs = bs.flatten.map CInt.toInt) (hv : ∀ z ∈ zs, -2 ^ 63 ≤ z ∧ z < 2 ^ 63)
    (hvT : ∀ z ∈ zs, z.natAbs ≤ 2 * 2 ^ (FloatArith.fmt T).frac)
    (hw : range = none ∨ promotes = true ∨ ∀ y ∈ zs, ∀ z ∈ zs, y ≤ z → CInt.lo V ≤ z - y ∧ z - y ≤ CInt.hi V)
    (h0 : zs ≠ []) (hp : ∀ p, p <+: zs → -2 ^ 63 ≤ p.sum ∧ p.sum < 2 ^ 63)
    (behind : List UInt8) (hroom : ∀ b : List UInt8, b.length = 4 + 2 * Scalar.size T + behind.length → Roomy space' (place' b) b.length)
    (qs₁ qs₂ : List (Ask V)) (h₁ : qs₁.length < 2 ^ 63) (h₂ : qs₂.length < 2 ^ 63) :
    ∃ as₁ as₂, Deployment (robustScalerIn (intRobust V promotes T) centering qMin qMax X host space place)
      (robustScalerIn (intRobust V promotes T) centering qMin qMax X host' space' place')
      (fun b => Roomy space' (place' b) b.length) bs qs₁ as₁ qs₂ as₂ := by
  have htake : bs.flatten.take (2 ^ 64 - 1) = bs.flatten := List.take_of_length_le (by omega)
  have hq := (C76_arguments qMin qMax).2.2 ⟨range, hab⟩
  have hzl : zs.length ≤ 2 ^ 60 := by
    rw [hzs, List.length_map]
    exact hlen
  obtain ⟨t, hy, -⟩ := (C76_integers_partial hT promotes centering qMin qMax range hab 0 (2 ^ 64 - 1) (by decide) bs hne hb [[]] (by simp)
    rfl rfl zs (by rw [htake]; exact hzs) hzl hv hvT hw).2 ⟨h0, hp⟩
  exact robust_deploys hq (hy X) behind hroom qs₁ qs₂ h₁ h₂

/-- A robust scaler of `double` from the lower to the upper quartile, for the values 3 and -4, and a NaN. -/
example (qs₁ qs₂ : List (Ask F64)) (h₁ : qs₁.length < 2 ^ 63) (h₂ : qs₂.length < 2 ^ 63) :
    ∃ as₁ as₂, Deployment (robustScalerIn (floRobust F64) true (FloatArith.ofInt 25) (FloatArith.ofInt 75) (Xf.ofFun fun _ x => .ok x)
        .little (2 ^ 40) (fun _ => 4096))
      (robustScalerIn (floRobust F64) true (FloatArith.ofInt 25) (FloatArith.ofInt 75) (Xf.ofFun fun _ x => .ok x)
        .big (2 ^ 40) (fun _ => 4096))
      (fun b => Roomy (2 ^ 40) 4096 b.length) [[FloatArith.ofInt 3, FloatArith.nan], [FloatArith.ofInt (-4)]] qs₁ as₁ qs₂ as₂ := by
  have hne : NoEmptyBatch ([[FloatArith.ofInt 3, FloatArith.nan], [FloatArith.ofInt (-4)]] : List (List F64)) := by
    intro b hb; simp at hb; rcases hb with rfl | rfl <;> simp
  have hfin : ∀ x ∈ ([[FloatArith.ofInt 3, FloatArith.nan], [FloatArith.ofInt (-4)]] : List (List F64)).flatten, ¬ FloatText.IsInf x := by
    have := example_finite
    exact this
  have hnum : ([3, -4] : List ℚ) = numbers floNumber ([[FloatArith.ofInt 3, FloatArith.nan], [FloatArith.ofInt (-4)]] : List (List F64)).flatten :=
    example_numbers.symm
  refine C106_robust .double example_range (by simp) hne (by simp) hfin [3, -4] hnum ?_ (by simp) (by norm_num) example_negligible [5]
    (fun b hb => ?_) qs₁ qs₂ h₁ h₂
  · intro q hq
    refine lt_of_le_of_lt ?_ large_66
    simp at hq
    rcases hq with rfl | rfl <;> norm_num
  · have hb : b.length = 21 := hb
    simp only [Roomy, hb]
    decide

/-- A robust scaler of `int8_t`, likewise, for 3, 5 and -4. -/
example (qs₁ qs₂ : List (Ask Int8)) (h₁ : qs₁.length < 2 ^ 63) (h₂ : qs₂.length < 2 ^ 63) :
    ∃ as₁ as₂, Deployment (robustScalerIn (intRobust Int8 true F32) true (FloatArith.ofInt 25) (FloatArith.ofInt 75)
        (Xf.ofFun fun _ x => .ok x) .little (2 ^ 40) (fun _ => 4096))
      (robustScalerIn (intRobust Int8 true F32) true (FloatArith.ofInt 25) (FloatArith.ofInt 75) (Xf.ofFun fun _ x => .ok x)
        .big (2 ^ 40) (fun _ => 4096))
      (fun b => Roomy (2 ^ 40) 4096 b.length) [[3, 5], [-4]] qs₁ as₁ qs₂ as₂ := by
  refine C106_robust_integers .float example_range (by simp) (by intro b hb; simp at hb; rcases hb with rfl | rfl <;> simp) (by simp)
    [3, 5, -4] (by decide) (by decide) (by decide +kernel) (.inr (.inl rfl)) (by simp) ?_ [5] (fun b hb => ?_) qs₁ qs₂ h₁ h₂
  · intro p hp
    have hm : p ∈ ([3, 5, -4] : List Int).inits := (List.mem_inits _ _).2 hp
    simp at hm
    rcases hm with rfl | rfl | rfl | rfl <;> norm_num
  · have hb : b.length = 13 := hb
    simp only [Roomy, hb]
    decide

end Feat.CApi
