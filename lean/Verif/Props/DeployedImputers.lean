import Verif.Props.DeployedFeaturizers
import Verif.Props.Deployable
import Verif.Props.FloatMedian
import Verif.Model.CImputers
/-
**C105**, **C106** Mean and median imputer: trained in one process and used in another.
-/
namespace Feat.CApi
open FloatStats FloatNorms
open FloatMedian (floGet intGet)
variable {ι : Type}

/-- `x` is replaced if it is null: the function `f` gives `m` for nulls and a number equal to `x` for others. -/
def Replaces {T : Type} [FloatArith.FloType T] (m : F64) (f : T → F64) : Prop :=
  (∀ x, FloatText.IsNaN x → f x = m) ∧ ∀ x, FloatText.Finite x → FloatText.Finite (f x) ∧ FloatText.value (f x) = FloatText.value x

/-- For integers, the nearest number. -/
def ReplacesIntegers {V : Type} [CInt V] (get : ι → Option V) (m : F64) (f : ι → F64) : Prop :=
  (∀ x, get x = none → f x = m) ∧ ∀ x v, get x = some v → FloatScalers.Rounded (CInt.toInt v : ℚ) (f x)

section
variable {σ : Nat → Type} {α : Type} {comps : (i : Nat) → Component (σ i) ι α} {n : Nat} {mk : AnnotationMaps α → Except Err F64}
  {maps : AnnotationMaps α} {X : Xf F64 ι ι} {f : F64 → ι → F64} {host host' : Endian} {space space' : Nat}
  {place place' : List UInt8 → Nat} {bs : List (List ι)} {m : F64}

private theorem trips (m : F64) : RoundTrips (imputer F64).ar m := library_roundTrips _ (.imputer F64) m m rfl trivial

private theorem imputer_deployed {qs₁ qs₂ : List (Ask ι)} {as₁ as₂ : List (Option (List F64))}
    (hy : FeaturizerYields X comps n mk bs maps (.ok m))
    (d : Deployment (pipelineIn (O := F64) (imputer F64).ar X (Xf.ofFun fun (t : F64) x => .ok (f t x)) comps n mk maps host space place)
      (pipelineIn (O := F64) (imputer F64).ar X (Xf.ofFun fun (t : F64) x => .ok (f t x)) comps n mk maps host' space' place')
      (fun b => Roomy space' (place' b) b.length) bs qs₁ as₁ qs₂ as₂) :
    as₁ = repliesOf (fun x => some [f m x]) qs₁ ∧ as₂ = repliesOf (fun x => some [f m x]) qs₂ :=
  deployed_function (c := (imputer F64).ar) hy (trips m) d

private theorem imputer_deploys (hy : FeaturizerYields X comps n mk bs maps (.ok m)) (behind : List UInt8)
    (hroom : ∀ b : List UInt8, b.length = 12 + behind.length → Roomy space' (place' b) b.length)
    (qs₁ qs₂ : List (Ask ι)) (h₁ : qs₁.length < 2 ^ 63) (h₂ : qs₂.length < 2 ^ 63) :
    ∃ as₁ as₂, Deployment (pipelineIn (O := F64) (imputer F64).ar X (Xf.ofFun fun (t : F64) x => .ok (f t x)) comps n mk maps host space place)
      (pipelineIn (O := F64) (imputer F64).ar X (Xf.ofFun fun (t : F64) x => .ok (f t x)) comps n mk maps host' space' place')
      (fun b => Roomy space' (place' b) b.length) bs qs₁ as₁ qs₂ as₂ := by
  refine C106_deploys (c := (imputer F64).ar) hy (trips m) (fun x h => by cases h) behind (fun bytes hw => ?_) qs₁ qs₂ h₁ h₂
  have hv : Writes writeVersion [1, 0, 0, 0] :=
    Writes.bind (b₁ := [1, 0]) (b₂ := [0, 0]) (Scalar.writes (1 : UInt16)) (Scalar.writes (0 : UInt16))
  have hb : bytes.length = 12 := by
    rw [writes_unique hw (Writes.bind hv (Codec.writes m trivial)), List.length_append]
    exact congrArg (4 + ·) (scalarBytes_length m)
  refine ⟨fun hx => ?_, hroom _ (by rw [List.length_append, hb])⟩
  have := congrArg List.length hx
  rw [List.length_append, hb] at this
  simp at this

end

/-- **C105** (median imputer of `float`, with C75) It is trained through the C interface of one process and used in this and in
another: both replace nulls by the median of the training values, and give other numbers unchanged. -/
theorem C105_median_float {X : Xf F64 F32 F32} {host host' : Endian} {space space' : Nat} {place place' : List UInt8 → Nat}
    {bs : List (List F32)} {qs₁ qs₂ : List (Ask F32)} {as₁ as₂ : List (Option (List F64))} (hne : bs ≠ []) (hb : NoEmptyBatch bs)
    (hlen : bs.flatten.length < 2 ^ 64) (hx : ∀ x ∈ bs.flatten, ¬ FloatText.IsInf x)
    (d : Deployment (medianImputerIn F32 floGet X host space place) (medianImputerIn F32 floGet X host' space' place')
      (fun b => Roomy space' (place' b) b.length) bs qs₁ as₁ qs₂ as₂) :
    ∃ (m : F64) (f : F32 → F64), FloatMedian.IsMedian (numbers floNumber bs.flatten) m ∧ Replaces m f ∧
      as₁ = repliesOf (fun x => some [f x]) qs₁ ∧ as₂ = repliesOf (fun x => some [f x]) qs₂ := by
  have htake : bs.flatten.take (2 ^ 64 - 1) = bs.flatten := List.take_of_length_le (by omega)
  obtain ⟨h0, h1⟩ := FloatMedian.C75_float (V := F32) (S := F64) 0 (2 ^ 64 - 1) (by decide) bs hne hb [[]] (by simp) rfl
    (by rw [htake]; exact hx) _ rfl
  rw [htake] at h0 h1
  have hl : numbers floNumber bs.flatten ≠ [] := by
    intro h
    obtain ⟨t, ht⟩ := C105_succeeds (c := (imputer F64).ar) (h0 h X) d
    cases ht
  obtain ⟨m, hm, hy⟩ := h1 hl
  obtain ⟨h2, h3⟩ := imputer_deployed (f := FloatMedian.execMedian floGet) (hy X) d
  obtain ⟨i1, -, i3, -⟩ := FloatMedian.C75_impute m
  exact ⟨m, _, hm, ⟨i1, i3⟩, h2, h3⟩

/-- **C106** (median imputer of `float`) If no training value is infinite and not all are null, it can be deployed. -/
theorem C106_median_float {X : Xf F64 F32 F32} {host host' : Endian} {space space' : Nat} {place place' : List UInt8 → Nat}
    {bs : List (List F32)} (hne : bs ≠ []) (hb : NoEmptyBatch bs)
    (hlen : bs.flatten.length < 2 ^ 64) (hx : ∀ x ∈ bs.flatten, ¬ FloatText.IsInf x) (hl : numbers floNumber bs.flatten ≠ [])
    (behind : List UInt8) (hroom : ∀ b : List UInt8, b.length = 12 + behind.length → Roomy space' (place' b) b.length)
    (qs₁ qs₂ : List (Ask F32)) (h₁ : qs₁.length < 2 ^ 63) (h₂ : qs₂.length < 2 ^ 63) :
    ∃ as₁ as₂, Deployment (medianImputerIn F32 floGet X host space place) (medianImputerIn F32 floGet X host' space' place')
      (fun b => Roomy space' (place' b) b.length) bs qs₁ as₁ qs₂ as₂ := by
  have htake : bs.flatten.take (2 ^ 64 - 1) = bs.flatten := List.take_of_length_le (by omega)
  obtain ⟨-, h1⟩ := FloatMedian.C75_float (V := F32) (S := F64) 0 (2 ^ 64 - 1) (by decide) bs hne hb [[]] (by simp) rfl
    (by rw [htake]; exact hx) _ rfl
  rw [htake] at h1
  obtain ⟨m, hm, hy⟩ := h1 hl
  exact imputer_deploys (f := FloatMedian.execMedian floGet) (hy X) behind hroom qs₁ qs₂ h₁ h₂

/-- **C105** (median imputer of `double`, with C75) Likewise, if the sum of the two values in the middle is in range; else nulls are replaced by
an infinity. -/
theorem C105_median_double {X : Xf F64 F64 F64} {host host' : Endian} {space space' : Nat} {place place' : List UInt8 → Nat}
    {bs : List (List F64)} {qs₁ qs₂ : List (Ask F64)} {as₁ as₂ : List (Option (List F64))} (hne : bs ≠ []) (hb : NoEmptyBatch bs)
    (hlen : bs.flatten.length < 2 ^ 64) (hx : ∀ x ∈ bs.flatten, ¬ FloatText.IsInf x)
    (l : List ℚ) (hl : l = numbers floNumber bs.flatten)
    (d : Deployment (medianImputerIn F64 floGet X host space place) (medianImputerIn F64 floGet X host' space' place')
      (fun b => Roomy space' (place' b) b.length) bs qs₁ as₁ qs₂ as₂) :
    ∃ (m : F64) (lo hi : ℚ) (f : F64 → F64), FloatMedian.Middles l lo hi ∧
      (l.length % 2 = 1 ∨ |lo + hi| < FloatText.tooLarge F64 → FloatMedian.IsMedian l m) ∧
      (l.length % 2 = 0 → FloatText.tooLarge F64 ≤ |lo + hi| → FloatText.IsInf m) ∧ Replaces m f ∧
      as₁ = repliesOf (fun x => some [f x]) qs₁ ∧ as₂ = repliesOf (fun x => some [f x]) qs₂ := by
  have htake : bs.flatten.take (2 ^ 64 - 1) = bs.flatten := List.take_of_length_le (by omega)
  obtain ⟨h0, h1⟩ := FloatMedian.C75_double_partial (V := F64) (S := F64) 0 (2 ^ 64 - 1) (by decide) bs hne hb [[]] (by simp) rfl
    (by rw [htake]; exact hx) l (by rw [htake]; exact hl)
  have hl : l ≠ [] := by
    intro h
    obtain ⟨t, ht⟩ := C105_succeeds (c := (imputer F64).ar) (h0 h X) d
    cases ht
  obtain ⟨m, lo, hi, g1, g2, g3, hy⟩ := h1 hl
  obtain ⟨h2, h3⟩ := imputer_deployed (f := FloatMedian.execMedian floGet) (hy X) d
  obtain ⟨-, i2, -, i4⟩ := FloatMedian.C75_impute m
  exact ⟨m, lo, hi, _, g1, g2, g3, ⟨i2, i4⟩, h2, h3⟩

/-- **C106** (median imputer of `double`) Likewise. -/
theorem C106_median_double {X : Xf F64 F64 F64} {host host' : Endian} {space space' : Nat} {place place' : List UInt8 → Nat}
    {bs : List (List F64)} (hne : bs ≠ []) (hb : NoEmptyBatch bs)
    (hlen : bs.flatten.length < 2 ^ 64) (hx : ∀ x ∈ bs.flatten, ¬ FloatText.IsInf x) (hl : numbers floNumber bs.flatten ≠ [])
    (behind : List UInt8) (hroom : ∀ b : List UInt8, b.length = 12 + behind.length → Roomy space' (place' b) b.length)
    (qs₁ qs₂ : List (Ask F64)) (h₁ : qs₁.length < 2 ^ 63) (h₂ : qs₂.length < 2 ^ 63) :
    ∃ as₁ as₂, Deployment (medianImputerIn F64 floGet X host space place) (medianImputerIn F64 floGet X host' space' place')
      (fun b => Roomy space' (place' b) b.length) bs qs₁ as₁ qs₂ as₂ := by
  have htake : bs.flatten.take (2 ^ 64 - 1) = bs.flatten := List.take_of_length_le (by omega)
  obtain ⟨-, h1⟩ := FloatMedian.C75_double_partial (V := F64) (S := F64) 0 (2 ^ 64 - 1) (by decide) bs hne hb [[]] (by simp) rfl
    (by rw [htake]; exact hx) _ rfl
  rw [htake] at h1
  obtain ⟨m, -, -, -, -, -, hy⟩ := h1 hl
  exact imputer_deploys (f := FloatMedian.execMedian floGet) (hy X) behind hroom qs₁ qs₂ h₁ h₂

/-- **C105** (median imputer of integers, with C75) Both processes replace nulls by the median, if the values are at most 2^53 (else
by the median of the nearest `double`s), and give other integers as the nearest `double`. -/
theorem C105_median_integers {V : Type} [CInt V] {get : ι → Option V} {X : Xf F64 ι ι} {host host' : Endian} {space space' : Nat}
    {place place' : List UInt8 → Nat} {bs : List (List ι)} {qs₁ qs₂ : List (Ask ι)} {as₁ as₂ : List (Option (List F64))}
    (hne : bs ≠ []) (hb : NoEmptyBatch bs) (hlen : bs.flatten.length < 2 ^ 64)
    (zs : List Int) (hzs : zs = (bs.flatten.filterMap get).map CInt.toInt) (hv : ∀ z ∈ zs, |z| ≤ 2 ^ 64)
    (d : Deployment (medianImputerIn V (intGet get) X host space place)
      (medianImputerIn V (intGet get) X host' space' place') (fun b => Roomy space' (place' b) b.length) bs qs₁ as₁ qs₂ as₂) :
    ∃ (m : F64) (l : List ℚ) (f : ι → F64),
      List.Forall₂ (fun (z : Int) (q : ℚ) => ∃ d : F64, FloatText.IsNearest (z : ℚ) d ∧ q = FloatText.value d) zs l ∧
      FloatMedian.IsMedian l m ∧ ((∀ z ∈ zs, |z| ≤ 2 ^ 53) → FloatMedian.IsMedian (zs.map fun z : Int => (z : ℚ)) m) ∧
      ReplacesIntegers get m f ∧
      as₁ = repliesOf (fun x => some [f x]) qs₁ ∧ as₂ = repliesOf (fun x => some [f x]) qs₂ := by
  have htake : bs.flatten.take (2 ^ 64 - 1) = bs.flatten := List.take_of_length_le (by omega)
  obtain ⟨h0, h1⟩ := FloatMedian.C75_integers (V := V) (S := F64) get 0 (2 ^ 64 - 1) (by decide) bs hne hb [[]] (by simp) rfl
    zs (by rw [htake]; exact hzs) hv
  have hz : zs ≠ [] := by
    intro h
    obtain ⟨t, ht⟩ := C105_succeeds (c := (imputer F64).ar) (h0 h X) d
    cases ht
  obtain ⟨m, l, g1, g2, g3, hy⟩ := h1 hz
  obtain ⟨h2, h3⟩ := imputer_deployed (f := FloatMedian.execMedian (intGet get)) (hy X) d
  exact ⟨m, l, _, g1, g2, g3, ⟨fun x => (FloatMedian.C75_impute_integers get m x).1, fun x => (FloatMedian.C75_impute_integers get m x).2⟩,
    h2, h3⟩

/-- **C105** (mean imputer of `float` and `double`, with C71) Both processes replace nulls by a number `a` between the least
and the greatest training value and near the exact mean, and give other numbers unchanged. -/
theorem C105_mean {T : Type} [FloatArith.FloType T] [FloatArith.Lawful T] [FloatArith.Wider T FloatArith.F80] {N : Nat}
    (hT : Column T N) {X : Xf F64 T T} {host host' : Endian} {space space' : Nat} {place place' : List UInt8 → Nat}
    {bs : List (List T)} {qs₁ qs₂ : List (Ask T)} {as₁ as₂ : List (Option (List F64))} (hne : bs ≠ []) (hb : NoEmptyBatch bs)
    (hlen : bs.flatten.length ≤ 2 ^ 60) (l : List ℚ) (hl : l = numbers floNumber bs.flatten)
    (d : Deployment (meanImputerIn (floStat T) X host space place) (meanImputerIn (floStat T) X host' space' place')
      (fun b => Roomy space' (place' b) b.length) bs qs₁ as₁ qs₂ as₂) :
    (∀ x ∈ bs.flatten, ¬ FloatText.IsInf x) ∧ l ≠ [] ∧ ∃ (a : F64) (f : T → F64),
      Within l a ∧ NearMean (l.length / 2 ^ 63 + 1 / 2 ^ 52) l a ∧ Replaces a f ∧
      as₁ = repliesOf (fun x => some [f x]) qs₁ ∧ as₂ = repliesOf (fun x => some [f x]) qs₂ := by
  have htake : bs.flatten.take (2 ^ 64 - 1) = bs.flatten := List.take_of_length_le (by omega)
  have hinf : ∀ x ∈ bs.flatten, ¬ FloatText.IsInf x := by
    intro x hx hi
    have := C71_infinite (makeMean 0) 0 (2 ^ 64 - 1) (by decide) (by decide) bs hne hb [[]] (by simp) rfl
      (by rw [htake]; exact ⟨x, hx, hi⟩) X
    obtain ⟨t, ht⟩ := C105_succeeds (c := (imputer F64).ar) this d
    cases ht
  have hl60 : l.length ≤ 2 ^ 60 := by
    rw [hl]
    exact (List.length_filterMap_le _ _).trans hlen
  obtain ⟨r, hy, h0, h1⟩ : ∃ r : Except Err F64,
      (∀ X : Xf F64 T T, FeaturizerYields X (fun _ => statComponent (floStat T) 0 (2 ^ 64 - 1)) 1 (makeMean 0) bs [[]] r) ∧
      (l = [] → r = .error .runtimeError) ∧ ∀ a, r = .ok a → Within l a ∧ NearMean (l.length / 2 ^ 63 + 1 / 2 ^ 52) l a := by
    cases hT with
    | float =>
      obtain ⟨r, h1, -, h3, h4, -⟩ := C71_float_partial 0 (2 ^ 64 - 1) (by decide) bs hne hb [[]] (by simp) rfl
        (by rw [htake]; exact hinf) l (by rw [htake]; exact hl) hl60
      exact ⟨r, h1, h3, h4⟩
    | double =>
      obtain ⟨r, h1, -, h3, h4, -⟩ := C71_double_partial 0 (2 ^ 64 - 1) (by decide) bs hne hb [[]] (by simp) rfl
        (by rw [htake]; exact hinf) l (by rw [htake]; exact hl) hl60
      exact ⟨r, h1, h3, h4⟩
  obtain ⟨a, rfl⟩ := C105_succeeds (c := (imputer F64).ar) (hy X) d
  obtain ⟨h2, h3⟩ := imputer_deployed (f := execMean (floStat T)) (hy X) d
  obtain ⟨h4, h5⟩ := h1 a rfl
  exact ⟨hinf, fun h => (by cases h0 h), a, _, h4, h5, ⟨fun x => (C71_impute hT a x).1, fun x => (C71_impute hT a x).2⟩, h2, h3⟩

/-- **C106** (mean imputer of `float` and `double`, with C71) If no training value is infinite or too small beside the others, it
can be deployed. -/
theorem C106_mean {T : Type} [FloatArith.FloType T] [FloatArith.Lawful T] [FloatArith.Wider T FloatArith.F80] {N : Nat}
    (hT : Column T N) {X : Xf F64 T T} {host host' : Endian} {space space' : Nat} {place place' : List UInt8 → Nat}
    {bs : List (List T)} (hne : bs ≠ []) (hb : NoEmptyBatch bs)
    (hlen : bs.flatten.length ≤ 2 ^ 60) (hinf : ∀ x ∈ bs.flatten, ¬ FloatText.IsInf x) (l : List ℚ)
    (hl : l = numbers floNumber bs.flatten) (hl0 : l ≠ []) (hN : l.length ≤ N) (hnn : NoneNegligible (l.map fun q => |q|))
    (behind : List UInt8) (hroom : ∀ b : List UInt8, b.length = 12 + behind.length → Roomy space' (place' b) b.length)
    (qs₁ qs₂ : List (Ask T)) (h₁ : qs₁.length < 2 ^ 63) (h₂ : qs₂.length < 2 ^ 63) :
    ∃ as₁ as₂, Deployment (meanImputerIn (floStat T) X host space place) (meanImputerIn (floStat T) X host' space' place')
      (fun b => Roomy space' (place' b) b.length) bs qs₁ as₁ qs₂ as₂ := by
  have htake : bs.flatten.take (2 ^ 64 - 1) = bs.flatten := List.take_of_length_le (by omega)
  have hl60 : l.length ≤ 2 ^ 60 := by
    rw [hl]
    exact (List.length_filterMap_le _ _).trans hlen
  obtain ⟨r, hy, h1⟩ : ∃ r : Except Err F64,
      (∀ X : Xf F64 T T, FeaturizerYields X (fun _ => statComponent (floStat T) 0 (2 ^ 64 - 1)) 1 (makeMean 0) bs [[]] r) ∧
      ∃ a, r = .ok a := by
    cases hT with
    | float =>
      obtain ⟨r, h1, -, -, -, h5, -⟩ := C71_float_partial 0 (2 ^ 64 - 1) (by decide) bs hne hb [[]] (by simp) rfl
        (by rw [htake]; exact hinf) l (by rw [htake]; exact hl) hl60
      exact ⟨r, h1, h5 hl0 hN hnn⟩
    | double =>
      obtain ⟨r, h1, -, -, -, h5, -⟩ := C71_double_partial 0 (2 ^ 64 - 1) (by decide) bs hne hb [[]] (by simp) rfl
        (by rw [htake]; exact hinf) l (by rw [htake]; exact hl) hl60
      exact ⟨r, h1, h5 hl0 hN hnn⟩
  obtain ⟨a, rfl⟩ := h1
  exact imputer_deploys (f := execMean (floStat T)) (hy X) behind hroom qs₁ qs₂ h₁ h₂

/-- **C105** (mean imputer of integers, with C71) Both processes replace nulls by a `double` within 2^-52 of the exact mean. -/
theorem C105_mean_integers {V : Type} [CInt V] {get : ι → Option V} {X : Xf F64 ι ι} {host host' : Endian} {space space' : Nat}
    {place place' : List UInt8 → Nat} {bs : List (List ι)} {qs₁ qs₂ : List (Ask ι)} {as₁ as₂ : List (Option (List F64))}
    (hne : bs ≠ []) (hb : NoEmptyBatch bs) (hlen : bs.flatten.length ≤ 2 ^ 60)
    (zs : List Int) (hzs : zs = (bs.flatten.filterMap get).map CInt.toInt) (hv : ∀ z ∈ zs, -2 ^ 63 ≤ z ∧ z < 2 ^ 63)
    (d : Deployment (meanImputerIn (intStat V get) X host space place) (meanImputerIn (intStat V get) X host' space' place')
      (fun b => Roomy space' (place' b) b.length) bs qs₁ as₁ qs₂ as₂) :
    zs ≠ [] ∧ ∃ (a : F64) (f : ι → F64), FloatText.Finite a ∧
      |FloatText.value a - mean (zs.map fun z : Int => (z : ℚ))| ≤ |mean (zs.map fun z : Int => (z : ℚ))| * (1 / 2 ^ 52) ∧
      ReplacesIntegers get a f ∧
      as₁ = repliesOf (fun x => some [f x]) qs₁ ∧ as₂ = repliesOf (fun x => some [f x]) qs₂ := by
  have htake : bs.flatten.take (2 ^ 64 - 1) = bs.flatten := List.take_of_length_le (by omega)
  have hzl : zs.length ≤ 2 ^ 60 := by
    rw [hzs, List.length_map]
    exact (List.length_filterMap_le _ _).trans hlen
  obtain ⟨h0, h1⟩ := C71_integers_partial get 0 (2 ^ 64 - 1) (by decide) bs hne hb [[]] (by simp) rfl
    zs (by rw [htake]; exact hzs) hzl hv
  by_cases h : zs ≠ [] ∧ ∀ p, p <+: zs → -2 ^ 63 ≤ p.sum ∧ p.sum < 2 ^ 63
  · obtain ⟨a, hy, g1, g2, -⟩ := h1 h
    obtain ⟨h2, h3⟩ := imputer_deployed (f := execMean (intStat V get)) (hy X) d
    exact ⟨h.1, a, _, g1, g2, ⟨fun x => (C71_impute_integers get a x).1, fun x => (C71_impute_integers get a x).2⟩, h2, h3⟩
  · obtain ⟨t, ht⟩ := C105_succeeds (c := (imputer F64).ar) (h0 (by
      by_contra hn
      push Not at hn
      exact h ⟨hn.1, hn.2⟩) X) d
    cases ht

/-- **C106** (median and mean imputer of integers) If not all training values are null and, for the mean, no sum of the first training
values is out of range, they can be deployed. -/
theorem C106_median_integers {V : Type} [CInt V] {get : ι → Option V} {X : Xf F64 ι ι} {host host' : Endian} {space space' : Nat}
    {place place' : List UInt8 → Nat} {bs : List (List ι)} (hne : bs ≠ []) (hb : NoEmptyBatch bs) (hlen : bs.flatten.length < 2 ^ 64)
    (zs : List Int) (hzs : zs = (bs.flatten.filterMap get).map CInt.toInt) (hv : ∀ z ∈ zs, |z| ≤ 2 ^ 64) (hz : zs ≠ [])
    (behind : List UInt8) (hroom : ∀ b : List UInt8, b.length = 12 + behind.length → Roomy space' (place' b) b.length)
    (qs₁ qs₂ : List (Ask ι)) (h₁ : qs₁.length < 2 ^ 63) (h₂ : qs₂.length < 2 ^ 63) :
    ∃ as₁ as₂, Deployment (medianImputerIn V (intGet get) X host space place) (medianImputerIn V (intGet get) X host' space' place')
      (fun b => Roomy space' (place' b) b.length) bs qs₁ as₁ qs₂ as₂ := by
  have htake : bs.flatten.take (2 ^ 64 - 1) = bs.flatten := List.take_of_length_le (by omega)
  obtain ⟨-, h1⟩ := FloatMedian.C75_integers (V := V) (S := F64) get 0 (2 ^ 64 - 1) (by decide) bs hne hb [[]] (by simp) rfl
    zs (by rw [htake]; exact hzs) hv
  obtain ⟨m, -, -, -, -, hy⟩ := h1 hz
  exact imputer_deploys (f := FloatMedian.execMedian (intGet get)) (hy X) behind hroom qs₁ qs₂ h₁ h₂

theorem C106_mean_integers {V : Type} [CInt V] {get : ι → Option V} {X : Xf F64 ι ι} {host host' : Endian} {space space' : Nat}
    {place place' : List UInt8 → Nat} {bs : List (List ι)} (hne : bs ≠ []) (hb : NoEmptyBatch bs) (hlen : bs.flatten.length ≤ 2 ^ 60)
    (zs : List Int) (hzs : zs = (bs.flatten.filterMap get).map CInt.toInt) (hv : ∀ z ∈ zs, -2 ^ 63 ≤ z ∧ z < 2 ^ 63) (hz : zs ≠ [])
    (hsum : ∀ p, p <+: zs → -2 ^ 63 ≤ p.sum ∧ p.sum < 2 ^ 63)
    (behind : List UInt8) (hroom : ∀ b : List UInt8, b.length = 12 + behind.length → Roomy space' (place' b) b.length)
    (qs₁ qs₂ : List (Ask ι)) (h₁ : qs₁.length < 2 ^ 63) (h₂ : qs₂.length < 2 ^ 63) :
    ∃ as₁ as₂, Deployment (meanImputerIn (intStat V get) X host space place) (meanImputerIn (intStat V get) X host' space' place')
      (fun b => Roomy space' (place' b) b.length) bs qs₁ as₁ qs₂ as₂ := by
  have htake : bs.flatten.take (2 ^ 64 - 1) = bs.flatten := List.take_of_length_le (by omega)
  have hzl : zs.length ≤ 2 ^ 60 := by
    rw [hzs, List.length_map]
    exact (List.length_filterMap_le _ _).trans hlen
  obtain ⟨-, h1⟩ := C71_integers_partial get 0 (2 ^ 64 - 1) (by decide) bs hne hb [[]] (by simp) rfl
    zs (by rw [htake]; exact hzs) hzl hv
  obtain ⟨a, hy, -⟩ := h1 ⟨hz, hsum⟩
  exact imputer_deploys (f := execMean (intStat V get)) (hy X) behind hroom qs₁ qs₂ h₁ h₂

/-! ### Concrete cases -/

/-- For `int32_t`: 3, null and -4. -/
example (qs₁ qs₂ : List (Ask (Option Int32))) (h₁ : qs₁.length < 2 ^ 63) (h₂ : qs₂.length < 2 ^ 63) :
    (∃ as₁ as₂, Deployment (medianImputerIn Int32 (intGet (id : Option Int32 → Option Int32)) (Xf.ofFun fun _ x => .ok x) .little (2 ^ 40) (fun _ => 4096))
      (medianImputerIn Int32 (intGet (id : Option Int32 → Option Int32)) (Xf.ofFun fun _ x => .ok x) .big (2 ^ 40) (fun _ => 4096))
      (fun b => Roomy (2 ^ 40) 4096 b.length) [[some 3, none], [some (-4)]] qs₁ as₁ qs₂ as₂) ∧
    ∃ as₁ as₂, Deployment (meanImputerIn (intStat Int32 (id : Option Int32 → Option Int32)) (Xf.ofFun fun _ x => .ok x) .little (2 ^ 40) (fun _ => 4096))
      (meanImputerIn (intStat Int32 (id : Option Int32 → Option Int32)) (Xf.ofFun fun _ x => .ok x) .big (2 ^ 40) (fun _ => 4096))
      (fun b => Roomy (2 ^ 40) 4096 b.length) [[some 3, none], [some (-4)]] qs₁ as₁ qs₂ as₂ := by
  have hne : NoEmptyBatch ([[some 3, none], [some (-4)]] : List (List (Option Int32))) := by
    intro b hb; simp at hb; rcases hb with rfl | rfl <;> simp
  have hz : ([3, -4] : List Int) = (([[some 3, none], [some (-4)]] : List (List (Option Int32))).flatten.filterMap id).map CInt.toInt := by
    decide
  have hroom : ∀ b : List UInt8, b.length = 12 + [(5 : UInt8)].length → Roomy (2 ^ 40) 4096 b.length := by
    intro b hb
    simp only [Roomy, hb]
    decide
  refine ⟨C106_median_integers (by simp) hne (by simp) [3, -4] hz ?_ (by simp) [5] hroom qs₁ qs₂ h₁ h₂,
    C106_mean_integers (by simp) hne (by simp) [3, -4] hz ?_ (by simp) ?_ [5] hroom qs₁ qs₂ h₁ h₂⟩
  · intro z hz
    simp at hz
    rcases hz with rfl | rfl <;> norm_num
  · intro z hz
    simp at hz
    rcases hz with rfl | rfl <;> norm_num
  · intro p hp
    have hm : p ∈ ([3, -4] : List Int).inits := (List.mem_inits _ _).2 hp
    simp at hm
    rcases hm with rfl | rfl | rfl <;> norm_num

/-- A median imputer and a mean imputer of `double` for the values 3 and -4, and a NaN. -/
example (qs₁ qs₂ : List (Ask F64)) (h₁ : qs₁.length < 2 ^ 63) (h₂ : qs₂.length < 2 ^ 63) :
    (∃ as₁ as₂, Deployment (medianImputerIn F64 floGet (Xf.ofFun fun _ x => .ok x) .little (2 ^ 40) (fun _ => 4096))
      (medianImputerIn F64 floGet (Xf.ofFun fun _ x => .ok x) .big (2 ^ 40) (fun _ => 4096))
      (fun b => Roomy (2 ^ 40) 4096 b.length) [[FloatArith.ofInt 3, FloatArith.nan], [FloatArith.ofInt (-4)]] qs₁ as₁ qs₂ as₂) ∧
    ∃ as₁ as₂, Deployment (meanImputerIn (floStat F64) (Xf.ofFun fun _ x => .ok x) .little (2 ^ 40) (fun _ => 4096))
      (meanImputerIn (floStat F64) (Xf.ofFun fun _ x => .ok x) .big (2 ^ 40) (fun _ => 4096))
      (fun b => Roomy (2 ^ 40) 4096 b.length) [[FloatArith.ofInt 3, FloatArith.nan], [FloatArith.ofInt (-4)]] qs₁ as₁ qs₂ as₂ := by
  have hne : NoEmptyBatch ([[FloatArith.ofInt 3, FloatArith.nan], [FloatArith.ofInt (-4)]] : List (List F64)) := by
    intro b hb; simp at hb; rcases hb with rfl | rfl <;> simp
  have hfin : ∀ x ∈ ([[FloatArith.ofInt 3, FloatArith.nan], [FloatArith.ofInt (-4)]] : List (List F64)).flatten, ¬ FloatText.IsInf x := by
    have := example_finite
    exact this
  have hnum : ([3, -4] : List ℚ) = numbers floNumber ([[FloatArith.ofInt 3, FloatArith.nan], [FloatArith.ofInt (-4)]] : List (List F64)).flatten :=
    example_numbers.symm
  have hroom : ∀ b : List UInt8, b.length = 12 + [(5 : UInt8)].length → Roomy (2 ^ 40) 4096 b.length := by
    intro b hb
    simp only [Roomy, hb]
    decide
  exact ⟨C106_median_double (by simp) hne (by simp) hfin (by rw [← hnum]; simp) [5] hroom qs₁ qs₂ h₁ h₂,
    C106_mean .double (by simp) hne (by simp) hfin [3, -4] hnum (by simp) (by norm_num) example_negligible [5] hroom qs₁ qs₂ h₁ h₂⟩

end Feat.CApi
