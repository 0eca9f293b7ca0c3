import Verif.Props.DeployedFeaturizers
import Verif.Props.Deployable
import Verif.Model.CEncoders
/-
**C105**, **C106** One-hot encoder, numericalize and label encoder: trained in one process and used in another.
-/
namespace Feat.CApi

/-- What `Transform` of a one-hot encoder gives, if the different training values in increasing order are `ks`: a vector with one
column for each of them (and one more, the first, if unknown values are allowed), which is 1 in the column of `x`. -/
def hotOf {K : Type} [DecidableEq K] (ks : List K) (allow : Bool) (x : K) : Option (List (SingleValue UInt8)) :=
  if x ∈ ks then some [⟨UInt64.ofNat (ks.length + if allow then 1 else 0), 1, UInt64.ofNat (ks.idxOf x + if allow then 1 else 0)⟩]
  else if allow then some [⟨UInt64.ofNat (ks.length + 1), 1, 0⟩] else none

/-- What `Transform` of numericalize gives: the position, or NaN. -/
def numberOf {K : Type} [DecidableEq K] (ks : List K) (x : K) : Option (List F64) :=
  if x ∈ ks then some [FloatArith.ofInt (ks.idxOf x)] else some [FloatArith.nan]

/-- The first one is exact. -/
theorem numberOf_value {K : Type} [DecidableEq K] {ks : List K} {x : K} (hx : x ∈ ks) (hl : ks.length < 2 ^ 32) :
    ∃ v : F64, numberOf ks x = some [v] ∧ FloatText.Finite v ∧ FloatText.value v = (ks.idxOf x : ℚ) := by
  have hi := List.idxOf_lt_length_iff.2 hx
  have h := FloatArith.ofInt_exact (T := F64) (z := (ks.idxOf x : Int)) (by
    rw [Int.natAbs_natCast]
    have hp : 2 ^ 32 ≤ 2 * 2 ^ (FloatArith.fmt F64).frac := by decide
    omega)
  refine ⟨_, if_pos hx, h.1, ?_⟩
  rw [h.2]
  norm_cast

section
variable {K : Type} [LinearOrder K] [Traits K] [Fits K] [Codec K]

omit [Traits K] [Codec K] in
private theorem labels_fit {m : UMap K UInt32} {data : List K} (h : ∀ k, (m.find? k).isSome = true ↔ k ∈ data)
    (hlen : data.length < 2 ^ 32) (hfit : ∀ x ∈ data, Fits.fits x) : Fits.fits m := by
  have hkeys : ∀ e ∈ m.entries, e.1 ∈ data := by
    intro e he
    rw [← h, (m.find?_eq_some e.1 e.2).2 he]
    rfl
  refine ⟨?_, fun e he => ⟨hfit _ (hkeys e he), trivial⟩⟩
  have h1 := (List.subperm_of_subset m.nodup (fun x hx => by
    obtain ⟨e, he, rfl⟩ := List.mem_map.1 hx
    exact hkeys e he)).length_le
  rw [List.length_map] at h1
  show m.entries.length < 2 ^ 32
  omega

omit [Codec K] in
private theorem one_hot_trips {t : Encoder K} (h : RoundTrips (oneHot K).ar (t.labels, t.allowMissing)) : RoundTrips (oneHotAr K) t := by
  obtain ⟨bs, h1, h2, h3⟩ := h
  have h2 : Reads (oneHot K).load bs (t.labels, t.allowMissing) := h2
  exact ⟨bs, h1, Reads.map (fun p : UMap K UInt32 × Bool => (⟨p.1, p.2⟩ : Encoder K)) h2, Truncs.map h2 h3⟩

omit [LinearOrder K] [Traits K] [Fits K] [Codec K] in
private theorem not_nil {bs : List (List K)} (hne : bs ≠ []) (hb : NoEmptyBatch bs) : bs.flatten ≠ [] := by
  obtain ⟨b, rest, rfl⟩ := List.exists_cons_of_ne_nil hne
  have := hb b (by simp)
  simp [this]

/-- What training makes of the batches, how it is archived, and what it answers. -/
private theorem one_hot_made (X : Xf (Encoder K) K K) (it : IterOrder K UInt32) (allow : Bool) {bs : List (List K)}
    (hne : bs ≠ []) (hb : NoEmptyBatch bs) (hlen : bs.flatten.length + 1 < 2 ^ 32) (hfit : ∀ x ∈ bs.flatten, Fits.fits x)
    (hdata : bs.flatten ≠ []) :
    ∃ (ks : List K) (t : Encoder K), ks.Pairwise (· < ·) ∧ (∀ x, x ∈ ks ↔ x ∈ bs.flatten) ∧
      FeaturizerYields X (encoderComponents it 0 (2 ^ 64 - 1) UMap.empty) 2 (makeOneHot 0 allow) bs [[]] (.ok t) ∧
      RoundTrips (oneHotAr K) t ∧ (∀ x, oneHotEncode t x ≠ .error .ub) ∧
      (∀ x, ((oneHotEncode t x).toOption.map fun o => [o]) = hotOf ks allow x) ∧
      ∀ x, (t.labels.find? x).isSome = true ↔ x ∈ bs.flatten := by
  have htake : bs.flatten.take (2 ^ 64 - 1) = bs.flatten := List.take_of_length_le (by omega)
  obtain ⟨ks, t, k1, k2, k3, k4, k5, k6, k7⟩ := one_hot_trained X it 0 (2 ^ 64 - 1) (by decide) allow bs hne hb
    (by rw [htake]; exact hdata) [[]] (by simp) rfl rfl (by rw [htake]; exact hlen)
  rw [htake] at k2 k5 k6
  have hl : ks.length ≤ bs.flatten.length :=
    (List.subperm_of_subset (k1.imp (fun h => ne_of_lt h)) (fun x hx => (k2 x).1 hx)).length_le
  have h1 := library_roundTrips (oneHot K) (.oneHot K) (t.labels, t.allowMissing) (t.labels, t.allowMissing)
    (if_neg k7) ⟨labels_fit k6 (by omega) hfit, trivial⟩
  have hval : ∀ x ∈ ks, ∃ v, oneHotEncode t x = .ok v ∧
      v = ⟨UInt64.ofNat (ks.length + if allow then 1 else 0), 1, UInt64.ofNat (ks.idxOf x + if allow then 1 else 0)⟩ := by
    intro x hx
    have hi := List.idxOf_lt_length_iff.2 hx
    obtain ⟨⟨n, w, i⟩, c1, c2, c3, c4⟩ := k4 _ hi
    rw [List.getElem_idxOf hi] at c1
    refine ⟨_, c1, ?_⟩
    simp only at c2 c3 c4
    have hn : n = UInt64.ofNat (ks.length + if allow then 1 else 0) := by
      apply UInt64.toNat.inj
      rw [c3, UInt64.toNat_ofNat_of_lt']
      show _ < 2 ^ 64
      split <;> omega
    have hj : i = UInt64.ofNat (ks.idxOf x + if allow then 1 else 0) := by
      apply UInt64.toNat.inj
      rw [c4, UInt64.toNat_ofNat_of_lt']
      show _ < 2 ^ 64
      split <;> omega
    rw [hn, hj, c2]
  refine ⟨ks, t, k1, k2, k3, one_hot_trips h1, ?_, ?_, k6⟩
  · intro x h
    by_cases hx : x ∈ ks
    · obtain ⟨v, hv, -⟩ := hval x hx
      rw [hv] at h
      cases h
    · have hx := k5 x (fun hh => hx ((k2 x).2 hh))
      cases allow
      · rw [if_neg (by simp), h] at hx
        cases hx
      · rw [if_pos rfl] at hx
        obtain ⟨v, hv, -⟩ := hx
        rw [hv] at h
        cases h
  · intro x
    by_cases hx : x ∈ ks
    · obtain ⟨v, hv, he⟩ := hval x hx
      rw [hv, he, hotOf, if_pos hx]
      rfl
    · have hy := k5 x (fun hh => hx ((k2 x).2 hh))
      cases allow
      · rw [if_neg (by simp)] at hy
        rw [hy, hotOf, if_neg hx]
        rfl
      · rw [if_pos rfl] at hy
        obtain ⟨⟨n, w, i⟩, c1, c2, c3, c4⟩ := hy
        simp only at c2 c3 c4
        have hn : n = UInt64.ofNat (ks.length + 1) := by
          apply UInt64.toNat.inj
          rw [c3, UInt64.toNat_ofNat_of_lt']
          show _ < 2 ^ 64
          omega
        have hj : i = 0 := UInt64.toNat.inj c4
        rw [c1, hotOf, if_neg hx, if_pos rfl, hn, hj, c2]
        rfl

/-- **C105** (one-hot encoder, with C20) It is trained through the C interface of one process, with fewer than 2^32 - 1 training
items, and used in this and in another process: both answer with a vector with one column for every different training value, in
increasing order (and one more, column 0, if unknown values are allowed), which is 1 in the column of the value; for an unknown value
in column 0, or it is an error. -/
theorem C105_one_hot {X : Xf (Encoder K) K K} {it : IterOrder K UInt32} {allow : Bool} {host host' : Endian} {space space' : Nat}
    {place place' : List UInt8 → Nat} {bs : List (List K)} {qs₁ qs₂ : List (Ask K)}
    {as₁ as₂ : List (Option (List (SingleValue UInt8)))}
    (hne : bs ≠ []) (hb : NoEmptyBatch bs) (hlen : bs.flatten.length + 1 < 2 ^ 32) (hfit : ∀ x ∈ bs.flatten, Fits.fits x)
    (d : Deployment (oneHotIn X it allow host space place) (oneHotIn X it allow host' space' place')
      (fun b => Roomy space' (place' b) b.length) bs qs₁ as₁ qs₂ as₂) :
    ∃ ks : List K, ks.Pairwise (· < ·) ∧ (∀ x, x ∈ ks ↔ x ∈ bs.flatten) ∧
      as₁ = repliesOf (hotOf ks allow) qs₁ ∧ as₂ = repliesOf (hotOf ks allow) qs₂ := by
  obtain ⟨ks, t, k1, k2, hy, htrip, -, hv, -⟩ := one_hot_made X it allow hne hb hlen hfit (not_nil hne hb)
  obtain ⟨h1, h2⟩ := deployed_function hy htrip d
  exact ⟨ks, k1, k2, h1.trans (congrArg (repliesOf · qs₁) (funext hv)), h2.trans (congrArg (repliesOf · qs₂) (funext hv))⟩

private theorem version_bytes : Writes writeVersion [1, 0, 0, 0] :=
  Writes.bind (b₁ := [1, 0]) (b₂ := [0, 0]) (Scalar.writes (1 : UInt16)) (Scalar.writes (0 : UInt16))

private theorem oneHot_saved {t : Encoder K} {bytes : List UInt8} (hf : Fits.fits t.labels) (h : Writes ((oneHotAr K).save t) bytes) :
    bytes = [1, 0, 0, 0] ++ Codec.bytes (t.labels, t.allowMissing) :=
  writes_unique h (Writes.bind version_bytes (Codec.writes (t.labels, t.allowMissing) ⟨hf, trivial⟩))

/-- **C106** (one-hot encoder, with C20) It can be deployed, if the archive of an encoder with these labels and the bytes
behind it fit in the address space; what it answers is C105. -/
theorem C106_one_hot {X : Xf (Encoder K) K K} {it : IterOrder K UInt32} {allow : Bool} {host host' : Endian} {space space' : Nat}
    {place place' : List UInt8 → Nat} {bs : List (List K)}
    (hne : bs ≠ []) (hb : NoEmptyBatch bs) (hlen : bs.flatten.length + 1 < 2 ^ 32) (hfit : ∀ x ∈ bs.flatten, Fits.fits x)
    (behind : List UInt8) (hroom : ∀ (t : Encoder K) (bytes : List UInt8), (∀ x, (t.labels.find? x).isSome = true ↔ x ∈ bs.flatten) →
      Writes ((oneHotAr K).save t) bytes → Roomy space' (place' (bytes ++ behind)) (bytes ++ behind).length)
    (qs₁ qs₂ : List (Ask K)) (h₁ : qs₁.length < 2 ^ 63) (h₂ : qs₂.length < 2 ^ 63) :
    ∃ as₁ as₂, Deployment (oneHotIn X it allow host space place) (oneHotIn X it allow host' space' place')
      (fun b => Roomy space' (place' b) b.length) bs qs₁ as₁ qs₂ as₂ := by
  obtain ⟨ks, t, k1, k2, hy, htrip, hub, hv, hk⟩ := one_hot_made X it allow hne hb hlen hfit (not_nil hne hb)
  refine C106_deploys hy htrip hub behind (fun bytes hw => ⟨?_, hroom t bytes hk hw⟩) qs₁ qs₂ h₁ h₂
  rw [oneHot_saved (labels_fit hk (by omega) hfit) hw]
  simp

/-- **C106** (label encoder, with C20) Likewise for the label encoder. -/
theorem C106_label_encoder {X : Xf (Encoder K) K K} {it : IterOrder K UInt32} {allow : Bool} {host host' : Endian} {space space' : Nat}
    {place place' : List UInt8 → Nat} {bs : List (List K)}
    (hne : bs ≠ []) (hb : NoEmptyBatch bs) (hlen : bs.flatten.length + 1 < 2 ^ 32) (hfit : ∀ x ∈ bs.flatten, Fits.fits x)
    (behind : List UInt8) (hroom : ∀ (t : Encoder K) (bytes : List UInt8), (∀ x, (t.labels.find? x).isSome = true ↔ x ∈ bs.flatten) →
      Writes ((encoderAr K).save t) bytes → Roomy space' (place' (bytes ++ behind)) (bytes ++ behind).length)
    (qs₁ qs₂ : List (Ask K)) (h₁ : qs₁.length < 2 ^ 63) (h₂ : qs₂.length < 2 ^ 63) :
    ∃ as₁ as₂, Deployment (labelEncoderIn X it allow host space place) (labelEncoderIn X it allow host' space' place')
      (fun b => Roomy space' (place' b) b.length) bs qs₁ as₁ qs₂ as₂ := by
  have htake : bs.flatten.take (2 ^ 64 - 1) = bs.flatten := List.take_of_length_le (by omega)
  obtain ⟨ks, t, k1, k2, k3, k4, k5, k6, k7⟩ := label_encoder_trained X it 0 (2 ^ 64 - 1) (by decide) allow bs hne hb [[]] (by simp)
    rfl rfl (by rw [htake]; exact hlen)
  rw [htake] at k7
  have hf := labels_fit k7 (by omega) hfit
  have htrip : RoundTrips (encoderAr K) t :=
    encoder_trips t (library_roundTrips (labelEncoder K) (.labelEncoder K) (t.labels, t.allowMissing) (t.labels, t.allowMissing) rfl
      ⟨hf, trivial⟩)
  have hub : ∀ x, labelEncode t x ≠ .error .ub := by
    intro x
    unfold labelEncode
    cases t.labels.find? x <;> cases t.allowMissing <;> simp
  have h := C106_deploys (c := encoderAr K) (host := host) (space := space) (place := place) (host' := host') k3 htrip hub behind
    (fun bytes hw => ⟨?_, hroom t bytes k7 hw⟩) qs₁ qs₂ h₁ h₂
  · exact h
  · rw [writes_unique hw (Writes.bind version_bytes (Codec.writes (t.labels, t.allowMissing) ⟨hf, trivial⟩))]
    simp

private theorem numericalize_made (X : Xf (UMap K UInt32) K K) (it : IterOrder K UInt32) {bs : List (List K)}
    (hne : bs ≠ []) (hb : NoEmptyBatch bs) (hlen : bs.flatten.length < 2 ^ 32) (hfit : ∀ x ∈ bs.flatten, Fits.fits x) :
    ∃ (ks : List K) (m : UMap K UInt32), ks.Pairwise (· < ·) ∧ (∀ x, x ∈ ks ↔ x ∈ bs.flatten) ∧
      FeaturizerYields X (encoderComponents it 0 (2 ^ 64 - 1) UMap.empty) 2 (makeNumericalize 0) bs [[]] (.ok m) ∧
      RoundTrips (numericalize K).ar m ∧ Fits.fits m ∧
      (∀ x, ((numericalizeTo m x).toOption.map fun o => [o]) = numberOf ks x) ∧
      ∀ x, (m.find? x).isSome = true ↔ x ∈ bs.flatten := by
  have htake : bs.flatten.take (2 ^ 64 - 1) = bs.flatten := List.take_of_length_le (by omega)
  obtain ⟨ks, m, k1, k2, k3, k4, k5⟩ := C20_numericalize X it 0 (2 ^ 64 - 1) (by decide) bs hne hb [[]] (by simp) rfl rfl
    (by rw [htake]; exact hlen)
  rw [htake] at k2 k5
  have hval : ∀ x ∈ ks, ∃ c, m.find? x = some c ∧ c.toNat = ks.idxOf x := by
    intro x hx
    have hi := List.idxOf_lt_length_iff.2 hx
    obtain ⟨c, c1, c2⟩ := k4 _ hi
    rw [List.getElem_idxOf hi] at c1
    exact ⟨c, c1, c2⟩
  have hk : ∀ x, (m.find? x).isSome = true ↔ x ∈ bs.flatten := by
    intro x
    constructor
    · intro h
      by_contra hn
      have h0 : m.find? x = none := k5 x hn
      rw [h0] at h
      cases h
    · intro h
      obtain ⟨c, hc, -⟩ := hval x ((k2 x).2 h)
      rw [hc]
      rfl
  have hf := labels_fit hk hlen hfit
  refine ⟨ks, m, k1, k2, k3, library_roundTrips (numericalize K) (.numericalize K) m m rfl hf, hf, ?_, hk⟩
  intro x
  by_cases hx : x ∈ ks
  · obtain ⟨c, h1, h2⟩ := hval x hx
    have h1 : numericalizeOne m x = some c := h1
    simp only [numericalizeTo, h1, numberOf, if_pos hx, h2, Except.toOption, Option.map]
  · have h1 := k5 x (fun hh => hx ((k2 x).2 hh))
    simp only [numericalizeTo, h1, numberOf, if_neg hx, Except.toOption, Option.map]

/-- **C105** (numericalize, with C20) It is trained through the C interface of one process, with fewer than 2^32 training
items, and used in this and in another process: both answer with the position of the value among the different training values in
increasing order, as an exact `double`, and with NaN for an unknown value. -/
theorem C105_numericalize {X : Xf (UMap K UInt32) K K} {it : IterOrder K UInt32} {host host' : Endian} {space space' : Nat}
    {place place' : List UInt8 → Nat} {bs : List (List K)} {qs₁ qs₂ : List (Ask K)} {as₁ as₂ : List (Option (List F64))}
    (hne : bs ≠ []) (hb : NoEmptyBatch bs) (hlen : bs.flatten.length < 2 ^ 32) (hfit : ∀ x ∈ bs.flatten, Fits.fits x)
    (d : Deployment (numericalizeIn X it host space place) (numericalizeIn X it host' space' place')
      (fun b => Roomy space' (place' b) b.length) bs qs₁ as₁ qs₂ as₂) :
    ∃ ks : List K, ks.Pairwise (· < ·) ∧ (∀ x, x ∈ ks ↔ x ∈ bs.flatten) ∧
      as₁ = repliesOf (numberOf ks) qs₁ ∧ as₂ = repliesOf (numberOf ks) qs₂ ∧
      ∀ x ∈ ks, ∃ v : F64, numberOf ks x = some [v] ∧ FloatText.Finite v ∧ FloatText.value v = (ks.idxOf x : ℚ) := by
  obtain ⟨ks, m, k1, k2, hy, htrip, -, hv, -⟩ := numericalize_made X it hne hb hlen hfit
  obtain ⟨h1, h2⟩ := deployed_function hy htrip d
  have hl : ks.length ≤ bs.flatten.length :=
    (List.subperm_of_subset (k1.imp (fun h => ne_of_lt h)) (fun x hx => (k2 x).1 hx)).length_le
  exact ⟨ks, k1, k2, h1.trans (congrArg (repliesOf · qs₁) (funext hv)), h2.trans (congrArg (repliesOf · qs₂) (funext hv)),
    fun x hx => numberOf_value hx (by omega)⟩

/-- **C106** (numericalize, with C20) Likewise for numericalize. -/
theorem C106_numericalize {X : Xf (UMap K UInt32) K K} {it : IterOrder K UInt32} {host host' : Endian} {space space' : Nat}
    {place place' : List UInt8 → Nat} {bs : List (List K)}
    (hne : bs ≠ []) (hb : NoEmptyBatch bs) (hlen : bs.flatten.length < 2 ^ 32) (hfit : ∀ x ∈ bs.flatten, Fits.fits x)
    (behind : List UInt8) (hroom : ∀ (m : UMap K UInt32) (bytes : List UInt8), (∀ x, (m.find? x).isSome = true ↔ x ∈ bs.flatten) →
      Writes ((numericalize K).save m) bytes → Roomy space' (place' (bytes ++ behind)) (bytes ++ behind).length)
    (qs₁ qs₂ : List (Ask K)) (h₁ : qs₁.length < 2 ^ 63) (h₂ : qs₂.length < 2 ^ 63) :
    ∃ as₁ as₂, Deployment (numericalizeIn X it host space place) (numericalizeIn X it host' space' place')
      (fun b => Roomy space' (place' b) b.length) bs qs₁ as₁ qs₂ as₂ := by
  obtain ⟨ks, m, k1, k2, hy, htrip, hf, -, hk⟩ := numericalize_made X it hne hb hlen hfit
  refine C106_deploys (c := (numericalize K).ar) hy htrip (fun x => ?_) behind (fun bytes hw => ⟨?_, hroom m bytes hk hw⟩) qs₁ qs₂ h₁ h₂
  · unfold numericalizeTo
    cases numericalizeOne m x <;> simp
  · rw [writes_unique hw (Writes.bind version_bytes (Codec.writes m hf))]
    simp

end

/-! ### Concrete cases -/

/-- The archive of labels that are short texts. -/
private theorem saved_length (m : UMap Str UInt32) {n : Nat} (h : ∀ e ∈ m.entries, e.1.chars.length ≤ n) :
    (Codec.bytes m).length ≤ 4 + (8 + n) * m.entries.length := by
  have hall : ∀ es : List (Str × UInt32), (∀ e ∈ es, e.1.chars.length ≤ n) → (bytesAll es).length ≤ (8 + n) * es.length := by
    intro es
    induction es with
    | nil => intro _; exact Nat.zero_le _
    | cons e es ih =>
      intro h
      have h1 := ih (fun x hx => h x (by simp [hx]))
      have h2 := h e (by simp)
      have h3 : (Codec.bytes e).length = 4 + e.1.chars.length + 4 := by
        show ((lenBytes _ ++ e.1.chars) ++ scalarBytes e.2).length = _
        rw [List.length_append, List.length_append, scalarBytes_length]
        unfold lenBytes
        rw [scalarBytes_length]
        rfl
      show (Codec.bytes e ++ bytesAll es).length ≤ _
      rw [List.length_append, h3, List.length_cons, Nat.mul_succ]
      omega
  have h1 := hall m.entries h
  show (lenBytes _ ++ bytesAll m.entries).length ≤ _
  rw [List.length_append]
  unfold lenBytes
  rw [scalarBytes_length]
  show 4 + _ ≤ _
  omega

private def a : Str := ⟨[97]⟩
private def b : Str := ⟨[98]⟩

attribute [-instance] instDecidableEqStr

private theorem small {m : UMap Str UInt32} (h : ∀ x, (m.find? x).isSome = true ↔ x ∈ [[b], [a, b]].flatten) :
    (Codec.bytes m).length ≤ 31 ∧ Fits.fits m := by
  have hkeys : ∀ e ∈ m.entries, e.1 ∈ [[b], [a, b]].flatten := by
    intro e he
    rw [← h, (m.find?_eq_some e.1 e.2).2 he]
    rfl
  have hone : ∀ x ∈ [[b], [a, b]].flatten, x.chars.length ≤ 1 := by decide
  have h1 := saved_length m (n := 1) (fun e he => hone _ (hkeys e he))
  have h2 := (List.subperm_of_subset m.nodup (fun x hx => by
    obtain ⟨e, he, rfl⟩ := List.mem_map.1 hx
    exact hkeys e he)).length_le
  rw [List.length_map] at h2
  have h3 : [[b], [a, b]].flatten.length = 3 := rfl
  refine ⟨by omega, labels_fit h (by decide) ?_⟩
  intro x hx
  show x.chars.length < 2 ^ 32
  have := hone x hx
  omega

private theorem fit3 : ∀ x ∈ [[b], [a, b]].flatten, Fits.fits x := by
  intro x hx
  show x.chars.length < 2 ^ 32
  have hone : ∀ x ∈ [[b], [a, b]].flatten, x.chars.length ≤ 1 := by decide
  have := hone x hx
  omega

/-- A one-hot encoder for "b", "a", "b", on machines of different byte order, with one more byte behind the archive. -/
example (qs₁ qs₂ : List (Ask Str)) (h₁ : qs₁.length < 2 ^ 63) (h₂ : qs₂.length < 2 ^ 63) :
    ∃ as₁ as₂, Deployment (oneHotIn (Xf.ofFun fun _ x => .ok x) .reverse true .little (2 ^ 40) (fun _ => 4096))
      (oneHotIn (Xf.ofFun fun _ x => .ok x) .reverse true .big (2 ^ 40) (fun _ => 4096))
      (fun bytes => Roomy (2 ^ 40) 4096 bytes.length) [[b], [a, b]] qs₁ as₁ qs₂ as₂ := by
  refine C106_one_hot (by simp) (by unfold NoEmptyBatch; decide) (by decide) fit3 [5] ?_ qs₁ qs₂ h₁ h₂
  intro t bytes hk hw
  obtain ⟨h1, h2⟩ := small hk
  rw [oneHot_saved h2 hw, List.length_append, List.length_append]
  have h3 : (Codec.bytes (t.labels, t.allowMissing)).length = (Codec.bytes t.labels).length + 1 := by
    show (Codec.bytes t.labels ++ scalarBytes t.allowMissing).length = _
    rw [List.length_append, scalarBytes_length]
    rfl
  rw [h3]
  simp only [Roomy, List.length_cons, List.length_nil]
  omega

/-- Then the column of "a" is 1 and that of "b" 2. -/
example : repliesOf (hotOf [a, b] true) [.row b, .flush, .row ⟨[99]⟩, .row a] = [some [⟨3, 1, 2⟩], some [], some [⟨3, 1, 0⟩], some [⟨3, 1, 1⟩]] := by
  simp only [repliesOf, List.map, hotOf]
  decide

/-- Numericalize for the same texts. -/
example (qs₁ qs₂ : List (Ask Str)) (h₁ : qs₁.length < 2 ^ 63) (h₂ : qs₂.length < 2 ^ 63) :
    ∃ as₁ as₂, Deployment (numericalizeIn (Xf.ofFun fun _ x => .ok x) .reverse .little (2 ^ 40) (fun _ => 4096))
      (numericalizeIn (Xf.ofFun fun _ x => .ok x) .reverse .big (2 ^ 40) (fun _ => 4096))
      (fun bytes => Roomy (2 ^ 40) 4096 bytes.length) [[b], [a, b]] qs₁ as₁ qs₂ as₂ := by
  refine C106_numericalize (by simp) (by unfold NoEmptyBatch; decide) (by decide) fit3 [5] ?_ qs₁ qs₂ h₁ h₂
  intro m bytes hk hw
  obtain ⟨h1, h2⟩ := small hk
  rw [writes_unique hw (Writes.bind version_bytes (Codec.writes m h2)), List.length_append, List.length_append]
  simp only [Roomy, List.length_cons, List.length_nil]
  omega

end Feat.CApi
