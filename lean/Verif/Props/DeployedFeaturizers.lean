import Verif.Props.Deployment
import Verif.Props.FloatMaxAbs
import Verif.Props.FloatScaler
import Verif.Props.Constructors
import Verif.Props.Imputers
import Verif.Spec.Deployment
import Verif.Model.CScalers
/-
**C105** Featurizers that are trained in one process and used in another.
-/
namespace Feat.CApi
open FloatScalers
variable {ι O : Type}

/-- `C105_deployed`, with the story told once. -/
theorem C105_deployment {σ : Nat → Type} {α : Type} {c : ArClass} {X : Xf c.Obj ι ι} {Y : Xf c.Obj ι O}
    {comps : (i : Nat) → Component (σ i) ι α} {n : Nat} {mk : AnnotationMaps α → Except Err c.Obj} {maps : AnnotationMaps α} {t : c.Obj}
    {host host' : Endian} {space space' : Nat} {place place' : List UInt8 → Nat} {bs : List (List ι)}
    {qs₁ qs₂ : List (Ask ι)} {as₁ as₂ : List (Option (List O))}
    (hy : FeaturizerYields X comps n mk bs maps (.ok t)) (htrip : RoundTrips c (alone Y t qs₁).2)
    (d : Deployment (pipelineIn c X Y comps n mk maps host space place) (pipelineIn c X Y comps n mk maps host' space' place')
      (fun b => Roomy space' (place' b) b.length) bs qs₁ as₁ qs₂ as₂) :
    as₁ = (alone Y t qs₁).1 ∧ as₂ = (alone Y (alone Y t qs₁).2 qs₂).1 := by
  obtain ⟨h₀, hl₁, hc, s₁, hd₁, hs, hl₂, ht, s₂, hd₂, hl₃, hsave, g₀, hl₄, hroom, hload, s₃, hd₃⟩ := d
  exact C105_deployed hy h₀ hl₁ hc s₁ hd₁ hs hl₂ ht s₂ hd₂ hl₃ hsave htrip g₀ hl₄ hroom hload s₃ hd₃

/-- A deployment happens only if the standard training in C++ succeeds. -/
theorem C105_succeeds {σ : Nat → Type} {α : Type} {c : ArClass} {X : Xf c.Obj ι ι} {Y : Xf c.Obj ι O}
    {comps : (i : Nat) → Component (σ i) ι α} {n : Nat} {mk : AnnotationMaps α → Except Err c.Obj} {maps : AnnotationMaps α}
    {r : Except Err c.Obj} {host : Endian} {space : Nat} {place : List UInt8 → Nat} {bs : List (List ι)}
    {F' : Featurizer (List (Elem (CompState α σ) ι c.Obj) × CompState α σ) ι (List (Option c.Obj)) O} {room : List UInt8 → Prop}
    {qs₁ qs₂ : List (Ask ι)} {as₁ as₂ : List (Option (List O))}
    (hy : FeaturizerYields X comps n mk bs maps r)
    (d : Deployment (pipelineIn c X Y comps n mk maps host space place) F' room bs qs₁ as₁ qs₂ as₂) :
    ∃ t, r = .ok t := by
  obtain ⟨h₀, hl₁, hc, s₁, hd₁, hs, hl₂, ht, s₂, hd₂, hl₃, hsave, g₀, hl₄, hroom, hload, s₃, hd₃⟩ := d
  obtain ⟨s, m, e, ts, h1, h2, h3⟩ := standard_made h₀ hl₁ hc s₁ hd₁ hs hl₂ ht
  obtain ⟨N, hN⟩ := hy
  obtain ⟨e', he'⟩ := hN (N + m) (by omega)
  have h2' := trainAndCreate_more _ _ _ (N + m) _ _ h2 (by omega)
  have hs' : s = (newFeaturizer comps n mk maps).inner := (Except.ok.inj h1).symm
  subst hs'
  have h4 : some (r.map (fun t => List.replicate n none ++ [some t]), e') = some (Except.ok ts, e) := he'.symm.trans h2'
  rcases r with x | t
  · cases (Prod.mk.inj (Option.some.inj h4)).1
  · exact ⟨t, rfl⟩

/-- The same for transformers that are functions. -/
theorem deployed_function {σ : Nat → Type} {α : Type} {c : ArClass} {X : Xf c.Obj ι ι} {f : c.Obj → ι → Except Err O}
    {comps : (i : Nat) → Component (σ i) ι α} {n : Nat} {mk : AnnotationMaps α → Except Err c.Obj} {maps : AnnotationMaps α} {t : c.Obj}
    {host host' : Endian} {space space' : Nat} {place place' : List UInt8 → Nat} {bs : List (List ι)}
    {qs₁ qs₂ : List (Ask ι)} {as₁ as₂ : List (Option (List O))}
    (hy : FeaturizerYields X comps n mk bs maps (.ok t)) (htrip : RoundTrips c t)
    (d : Deployment (pipelineIn c X (Xf.ofFun f) comps n mk maps host space place)
      (pipelineIn c X (Xf.ofFun f) comps n mk maps host' space' place')
      (fun b => Roomy space' (place' b) b.length) bs qs₁ as₁ qs₂ as₂) :
    as₁ = repliesOf (fun x => (f t x).toOption.map fun o => [o]) qs₁ ∧
    as₂ = repliesOf (fun x => (f t x).toOption.map fun o => [o]) qs₂ := by
  have hsnd : (alone (Xf.ofFun f) t qs₁).2 = t := congrArg Prod.snd (ofFun_alone f t qs₁)
  obtain ⟨h1, h2⟩ := C105_deployment hy (by rw [hsnd]; exact htrip) d
  rw [hsnd] at h2
  exact ⟨h1.trans (congrArg Prod.fst (ofFun_alone f t qs₁)), h2.trans (congrArg Prod.fst (ofFun_alone f t qs₂))⟩

/-- **C105** (max-abs scaler of `float` and `double`, with C69) It is trained through the C interface of one process, and used in this and in another process: both give the same number `f x` for the same input `x`: in range, in order, with
the right sign and with `1` or `-1` for the extremes, the nearest number to the quotient by the largest absolute value, and NaN for
NaN.  There are no infinities among the training values. -/
theorem C105_max_abs {T : Type} [FloatArith.FloType T] [FloatArith.Lawful T] [Scalar T] {X : Xf T T T} {host host' : Endian}
    {space space' : Nat} {place place' : List UInt8 → Nat} {bs : List (List T)}
    {qs₁ qs₂ : List (Ask T)} {as₁ as₂ : List (Option (List T))} (hne : bs ≠ []) (hb : NoEmptyBatch bs)
    (hlen : bs.flatten.length < 2 ^ 64) (values : List T) (hvalues : values = bs.flatten.filter (fun x => !FloatArith.isNaN x))
    (d : Deployment (maxAbsIn (floAbs T) X host space place) (maxAbsIn (floAbs T) X host' space' place')
      (fun b => Roomy space' (place' b) b.length) bs qs₁ as₁ qs₂ as₂) :
    (∀ v ∈ values, FloatText.Finite v) ∧
    ∃ f : T → T, as₁ = repliesOf (fun x => some [f x]) qs₁ ∧ as₂ = repliesOf (fun x => some [f x]) qs₂ ∧
      AbsRange FloatText.Finite FloatText.value values f ∧
      (∀ x m, FloatText.Finite x → m ∈ values → (∀ v ∈ values, |FloatText.value v| ≤ |FloatText.value m|) → FloatText.value m ≠ 0 →
        |FloatText.value x| ≤ |FloatText.value m| → FloatText.IsNearest (FloatText.value x / |FloatText.value m|) (f x)) ∧
      ∀ x, FloatText.IsNaN x → FloatText.IsNaN (f x) := by
  have htake : bs.flatten.take (2 ^ 64 - 1) = bs.flatten := List.take_of_length_le (by omega)
  obtain ⟨h1, h2⟩ := C69_floating (T := T) 0 (2 ^ 64 - 1) (by decide) bs hne hb [[]] (by simp) rfl values (by rw [htake]; exact hvalues)
  have hfin : ∀ v ∈ values, FloatText.Finite v := by
    intro v hv
    by_contra hf
    have hn : FloatArith.isNaN v = false := by
      rw [hvalues] at hv
      simpa using (List.mem_filter.1 hv).2
    have hi : FloatText.IsInf v := by
      have he : FloatText.exponent v = 2 ^ FloatText.Binary.exp T - 1 := by_contra hf
      refine ⟨he, ?_⟩
      by_contra h0
      rw [(FloatArith.isNaN_iff v).2 ⟨he, h0⟩] at hn
      cases hn
    obtain ⟨t, ht⟩ := C105_succeeds (h1 ⟨v, hv, hi⟩ X) d
    cases ht
  refine ⟨hfin, ?_⟩
  obtain ⟨t, hy, r1, r2, -, r3⟩ := h2 hfin
  have htrip : RoundTrips (maxAbsScaler T).ar t := library_roundTrips _ (.maxAbsScaler T) t t rfl trivial
  obtain ⟨h1, h2⟩ := deployed_function (hy X) htrip d
  exact ⟨_, h1, h2, r1, r2, r3⟩

/-- **C105** (max-abs scaler of integers, with C69) The same for integer columns without the smallest `int32_t` or `int64_t`; beyond the
integers that are exact in the result type, the results are at most two units in the last place of the quotient away. -/
theorem C105_max_abs_integers {V T : Type} [CInt V] [FloatArith.FloType T] [FloatArith.Lawful T] [Scalar T]
    (hfit : ∀ x : V, |(CInt.toInt x : ℚ)| < FloatText.tooLarge T) {X : Xf T V V} {host host' : Endian}
    {space space' : Nat} {place place' : List UInt8 → Nat} {bs : List (List V)}
    {qs₁ qs₂ : List (Ask V)} {as₁ as₂ : List (Option (List T))} (hne : bs ≠ []) (hb : NoEmptyBatch bs)
    (hlen : bs.flatten.length < 2 ^ 64)
    (hmin : ∀ x ∈ bs.flatten, CInt.strict V = true → -CInt.toInt x ≤ CInt.hi V)
    (d : Deployment (maxAbsIn (intAbsInput V T) X host space place) (maxAbsIn (intAbsInput V T) X host' space' place')
      (fun b => Roomy space' (place' b) b.length) bs qs₁ as₁ qs₂ as₂) :
    ∃ f : V → T, as₁ = repliesOf (fun x => some [f x]) qs₁ ∧ as₂ = repliesOf (fun x => some [f x]) qs₂ ∧
      AbsRange (fun _ => True) (fun x : V => (CInt.toInt x : ℚ)) bs.flatten f ∧
      (∀ x m, m ∈ bs.flatten → (∀ v ∈ bs.flatten, |CInt.toInt v| ≤ |CInt.toInt m|) → CInt.toInt m ≠ 0 →
        |CInt.toInt x| ≤ |CInt.toInt m| → |CInt.toInt m| ≤ 2 * 2 ^ FloatText.Binary.frac T →
        FloatText.IsNearest ((CInt.toInt x : ℚ) / |(CInt.toInt m : ℚ)|) (f x)) ∧
      (∀ x m, m ∈ bs.flatten → (∀ v ∈ bs.flatten, |CInt.toInt v| ≤ |CInt.toInt m|) → CInt.toInt m ≠ 0 →
        |CInt.toInt x| ≤ |CInt.toInt m| →
        abs (FloatText.value (f x) - (CInt.toInt x : ℚ) / |(CInt.toInt m : ℚ)|) ≤
          2 * |(CInt.toInt x : ℚ) / CInt.toInt m| / 2 ^ FloatText.Binary.frac T
            + 1 / 2 ^ (FloatText.bias T + FloatText.Binary.frac T - 1) / 2) := by
  have htake : bs.flatten.take (2 ^ 64 - 1) = bs.flatten := List.take_of_length_le (by omega)
  obtain ⟨t, hy, r1, r2, r3⟩ := C69_integers_partial (V := V) (T := T) hfit 0 (2 ^ 64 - 1) (by decide) bs hne hb [[]] (by simp) rfl
    bs.flatten htake.symm hmin
  have htrip : RoundTrips (maxAbsScaler T).ar t := library_roundTrips _ (.maxAbsScaler T) t t rfl trivial
  obtain ⟨h1, h2⟩ := deployed_function (hy X) htrip d
  exact ⟨_, h1, h2, r1, r2, r3⟩

/-- **C105** (categorical imputer, with C34) It is trained through the C interface of one process, with
fewer than 2^32 training items, and used in this and in another process: both replace nulls by the most frequent value, the first one
seen among these, and keep all other inputs. -/
theorem C105_cat_imputer {K : Type} [DecidableEq K] [Traits K] [Fits K] [Codec K] {X : Xf K (Option K) (Option K)}
    {it : IterOrder (Option K) UInt32} {host host' : Endian} {space space' : Nat} {place place' : List UInt8 → Nat}
    {bs : List (List (Option K))} {qs₁ qs₂ : List (Ask (Option K))} {as₁ as₂ : List (Option (List K))}
    (hne : bs ≠ []) (hb : NoEmptyBatch bs) (hlen : bs.flatten.length < 2 ^ 32) (hfit : ∀ x, some x ∈ bs.flatten → Fits.fits x)
    (d : Deployment (catImputerIn X it host space place) (catImputerIn X it host' space' place')
      (fun b => Roomy space' (place' b) b.length) bs qs₁ as₁ qs₂ as₂) :
    ∃ m : K, IsMode Option.isSome bs.flatten (some m) ∧
      as₁ = repliesOf (fun x => some [x.getD m]) qs₁ ∧ as₂ = repliesOf (fun x => some [x.getD m]) qs₂ := by
  have htake : bs.flatten.take (2 ^ 64 - 1) = bs.flatten := List.take_of_length_le (by omega)
  obtain ⟨h1, h2⟩ := C34_mode it 0 (2 ^ 64 - 1) (by decide) bs hne hb (by rw [htake]; exact hlen) [[]] (by simp) rfl rfl rfl
  rw [htake] at h1 h2
  have hsome : ∃ x ∈ bs.flatten, x ≠ none := by
    by_contra hf
    push Not at hf
    obtain ⟨t, ht⟩ := C105_succeeds (h1 hf X) d
    cases ht
  obtain ⟨t, hm, hy, -⟩ := h2 hsome
  have htrip : RoundTrips (imputer K).ar t := library_roundTrips _ (.imputer K) t t rfl (hfit t hm.occurs)
  obtain ⟨h1, h2⟩ := deployed_function (hy X) htrip d
  refine ⟨t, hm, ?_, ?_⟩
  · rw [h1]; congr 1; funext x; cases x <;> rfl
  · rw [h2]; congr 1; funext x; cases x <;> rfl

theorem scaler_trips (t : StandardScaler F64) (h : RoundTrips standardScaler.ar (t.average, t.deviation)) : RoundTrips scalerAr t := by
  obtain ⟨bs, h1, h2, h3⟩ := h
  have h2 : Reads standardScaler.load bs (t.average, t.deviation) := h2
  exact ⟨bs, h1, Reads.map (fun p : F64 × F64 => (⟨p.1, p.2⟩ : StandardScaler F64)) h2, Truncs.map h2 h3⟩

/-- **C105** (standard scaler of `float` and `double`, with C72) It is trained through the C interface of one process, on values up to
`2^1020`, and used in this and in another process: both subtract a centre near the mean (or 0) and divide by a scale near the standard
deviation (or 1), and give the same number for the same input. -/
theorem C105_standard_scaler {T : Type} [FloatArith.FloType T] [FloatArith.Lawful T] [FloatArith.Wider T FloatArith.F80] {N : Nat}
    (hT : FloatStats.Column T N) {withMean withStd : Bool} {X : Xf (StandardScaler F64) T T} {host host' : Endian}
    {space space' : Nat} {place place' : List UInt8 → Nat} {bs : List (List T)}
    {qs₁ qs₂ : List (Ask T)} {as₁ as₂ : List (Option (List F64))} (hne : bs ≠ []) (hb : NoEmptyBatch bs)
    (hlen : bs.flatten.length ≤ 2 ^ 60) (l : List ℚ) (hl : l = FloatNorms.numbers FloatNorms.floNumber bs.flatten)
    (hmod : ∀ q ∈ l, |q| ≤ 2 ^ 1020)
    (d : Deployment (standardScalerIn (FloatStats.floStat T) withMean withStd X host space place)
      (standardScalerIn (FloatStats.floStat T) withMean withStd X host' space' place')
      (fun b => Roomy space' (place' b) b.length) bs qs₁ as₁ qs₂ as₂) :
    (∀ x ∈ bs.flatten, ¬ FloatText.IsInf x) ∧ l ≠ [] ∧
    ∃ f : T → F64, as₁ = repliesOf (fun x => some [f x]) qs₁ ∧ as₂ = repliesOf (fun x => some [f x]) qs₂ ∧
      ∃ m s, FloatStats.CentreAndScale withMean withStd l m s ∧
        FloatStats.ScalesBy m s (fun x : T => ¬ FloatText.IsInf x) FloatNorms.floNumber f := by
  have htake : bs.flatten.take (2 ^ 64 - 1) = bs.flatten := List.take_of_length_le (by omega)
  have hinf : ∀ x ∈ bs.flatten, ¬ FloatText.IsInf x := by
    intro x hx hi
    have := FloatStats.C72_infinite withMean withStd 0 (2 ^ 64 - 1) (by decide) (by decide) bs hne hb [[]] (by simp) rfl
      (by rw [htake]; exact ⟨x, hx, hi⟩) X
    obtain ⟨t, ht⟩ := C105_succeeds (c := scalerAr) this d
    cases ht
  obtain ⟨r, hy, -, h0, h1, -⟩ := FloatStats.C72_float_partial hT withMean withStd 0 (2 ^ 64 - 1) (by decide) bs hne hb [[]] (by simp) rfl rfl
    (by rw [htake]; exact hinf) l (by rw [htake]; exact hl)
    (by
      rw [hl]
      exact (List.length_filterMap_le _ _).trans hlen) hmod
  obtain ⟨t, rfl⟩ := C105_succeeds (c := scalerAr) (hy X) d
  refine ⟨hinf, fun h => (by cases h0 h), ?_⟩
  obtain ⟨m, s, g1, g2, g3, g4⟩ := h1 t rfl
  have hneg : t.deviation.isNegative = false := by
    rw [isNegative_lt]
    by_contra hlt
    rw [Bool.not_eq_false, FloatArith.lt_iff g3 (FloatArith.finite_zero _), FloatArith.value_zero] at hlt
    linarith
  have htrip : RoundTrips scalerAr t := scaler_trips t
    (library_roundTrips _ .standardScaler (t.average, t.deviation) (t.average, t.deviation) (by simp [standardScaler, hneg]) ⟨trivial, trivial⟩)
  obtain ⟨h1, h2⟩ := deployed_function (c := scalerAr) (hy X) htrip d
  exact ⟨_, h1, h2, m, s, g1, g2⟩

/-! ### Concrete cases -/

private theorem pair_of' {α β : Type} {x : α × β} {r : α} (h : x.1 = r) : x = (r, x.2) := by
  cases h
  rfl

/-- The deployment that consists of the given calls. -/
theorem deployment_of {σ τ : Type} {F F' : Featurizer σ ι τ O} {room : List UInt8 → Prop} {bs : List (List ι)}
    (training asked₁ before asked₂ : List (Request ι)) (h k j m₁ m₂ n : Nat) (bytes behind : List UInt8) (w₁ w₂ w₃ w₄ v₀ v₁ : World σ τ)
    (e₁ : w₁ = (serve F (.call (.createEstimator true) true) (luck 0) World.start).2)
    (e₂ : w₂ = (serveAll F 1 training w₁).2)
    (e₃ : w₃ = (serve F (.call (.createTransformer h true) true) (luck m₁) w₂).2)
    (e₄ : w₄ = (serveAll F (m₁ + 1) asked₁ w₃).2)
    (f₀ : v₀ = (serveAll F' 0 before World.start).2)
    (f₁ : v₁ = (serve F' (.call (.loadTransformer (some (bytes ++ behind)) true) true) (luck n) v₀).2)
    (hc : (serve F (.call (.createEstimator true) true) (luck 0) World.start).1 = .returned true (.handle h) none)
    (s₁ : smooth F 1 training w₁ = true)
    (hd₁ : ∀ r ∈ training, r ≠ .call (.destroyEstimator h) true)
    (hs : TrainsWith bs (sights h (training.zip (serveAll F 1 training w₁).1)))
    (hl₂ : (luck m₁).Ok w₂)
    (ht : (serve F (.call (.createTransformer h true) true) (luck m₁) w₂).1 = .returned true (.handle k) none)
    (s₂ : smooth F (m₁ + 1) asked₁ w₃ = true) (hd₂ : ∀ r ∈ asked₁, r ≠ .call (.destroyTransformer k) true)
    (hl₃ : (luck m₂).Ok w₄)
    (hsave : (serve F (.call (.save k true) true) (luck m₂) w₄).1 = .returned true (.bytes bytes) none)
    (s₀ : smooth F' 0 before World.start = true) (hl₄ : (luck n).Ok v₀) (hroom : room (bytes ++ behind))
    (hload : (serve F' (.call (.loadTransformer (some (bytes ++ behind)) true) true) (luck n) v₀).1 = .returned true (.handle j) none)
    (s₃ : smooth F' (n + 1) asked₂ v₁ = true) (hd₃ : ∀ r ∈ asked₂, r ≠ .call (.destroyTransformer j) true) :
    Deployment F F' room bs (questions k (asked₁.zip (serveAll F (m₁ + 1) asked₁ w₃).1))
      (answers k (asked₁.zip (serveAll F (m₁ + 1) asked₁ w₃).1))
      (questions j (asked₂.zip (serveAll F' (n + 1) asked₂ v₁).1)) (answers j (asked₂.zip (serveAll F' (n + 1) asked₂ v₁).1)) := by
  subst e₁ e₂ e₃ e₄ f₀ f₁
  exact .mk .start (luck_ok rfl rfl (by omega)) (pair_of' hc) (session_of _ _ _ s₁) (fun e he => hd₁ _ (List.of_mem_zip he).1) hs hl₂
    (pair_of' ht) (session_of _ _ _ s₂) (fun e he => hd₂ _ (List.of_mem_zip he).1) hl₃ (pair_of' hsave)
    (history_of (session_of _ _ _ s₀)) hl₄ hroom (pair_of' hload) (session_of _ _ _ s₃) (fun e he => hd₃ _ (List.of_mem_zip he).1)

/-- Scalers of `float` in processes with 40-bit addresses, where the buffers lie at 4096. -/
private def scaler (host : Endian) :=
  maxAbsIn (floAbs F32) (Xf.ofFun fun _ x => .ok x) host (2 ^ 40) (fun _ => 4096)

private def f3 : F32 := ⟨0x40400000⟩
private def fm8 : F32 := ⟨0xC1000000⟩

private def training : List (Request F32) :=
  [.call (.getState 7 true) true, .call (.fit 7 f3 true) true, .call (.getState 7 true) true, .call (.fit 7 fm8 true) true,
   .call (.onDataCompleted 7) true, .call (.getState 7 true) true, .call (.completeTraining 7) true]

private def asked₁ : List (Request F32) := [.call (.transform 23 f3 true) true]
private def asked₂ : List (Request F32) :=
  [.call (.transform 9 fm8 true) true, .call (.destroyEstimator 7) true, .call (.transform 9 f3 true) true]

private def w₁ := (serve (scaler .little) (.call (.createEstimator true) true) (luck 0) World.start).2
private def w₂ := (serveAll (scaler .little) 1 training w₁).2
private def w₃ := (serve (scaler .little) (.call (.createTransformer 7 true) true) (luck 8) w₂).2
private def w₄ := (serveAll (scaler .little) 9 asked₁ w₃).2
/-- Version 1.0 and the number 8. -/
private def saved : List UInt8 := [1, 0, 0, 0, 0, 0, 0, 65]
private def v₀ := (serveAll (scaler .big) 0 [.call (.createEstimator true) true] World.start).2
private def v₁ := (serve (scaler .big) (.call (.loadTransformer (some (saved ++ [5])) true) true) (luck 1) v₀).2

set_option maxRecDepth 100000 in
/-- The hypotheses of `C105_max_abs` are met, with machines of different byte order. -/
example : ∃ as₁, Deployment (scaler .little) (scaler .big) (fun b => Roomy (2 ^ 40) 4096 b.length) [[f3], [fm8]]
    [.row f3] as₁ [.row fm8, .row f3] [some [⟨0xBF800000⟩], some [⟨0x3EC00000⟩]] := by
  have h := deployment_of (F := scaler .little) (F' := scaler .big) (room := fun b => Roomy (2 ^ 40) 4096 b.length)
    (bs := [[f3], [fm8]]) training asked₁ [.call (.createEstimator true) true] asked₂ 7 23 9 8 10 1 saved [5] w₁ w₂ w₃ w₄ v₀ v₁
    rfl rfl rfl rfl rfl rfl (by decide +kernel) (by decide +kernel) (by simp [training]) ?_
    (luck_ok (by decide +kernel) (by decide +kernel) (by omega)) (by decide +kernel) (by decide +kernel) (by simp [asked₁])
    (luck_ok (by decide +kernel) (by decide +kernel) (by omega)) (by decide +kernel) (by decide +kernel)
    (luck_ok (by decide +kernel) (by decide +kernel) (by omega)) (by unfold Roomy; decide) (by decide +kernel) (by decide +kernel)
    (by simp [asked₂])
  · have e : answers 9 (asked₂.zip (serveAll (scaler .big) 2 asked₂ v₁).1) = [some [⟨0xBF800000⟩], some [⟨0x3EC00000⟩]] := by
      decide +kernel
    rw [e] at h
    exact ⟨_, h⟩
  · have : sights 7 (training.zip (serveAll (scaler .little) 1 training w₁).1)
        = [.state .training, .fitted [f3] .continue, .state .training, .fitted [fm8] .continue, .dataCompleted,
           .state .finished] ++ [.completed] := by decide +kernel
    rw [this]
    exact .loop (by decide) (.next (by decide) (by decide) (.last (by decide) (.done (by decide))))

namespace Imputing

private def cat (host : Endian) :=
  catImputerIn (K := Str) (Xf.ofFun fun _ x => .ok x) .reverse host (2 ^ 40) (fun _ => 4096)

private def b : Str := ⟨[98]⟩
private def c : Str := ⟨[99]⟩

private def training : List (Request (Option Str)) :=
  [.call (.getState 7 true) true, .call (.fit 7 (some b) true) true, .call (.getState 7 true) true, .call (.fit 7 none true) true,
   .call (.onDataCompleted 7) true, .call (.getState 7 true) true, .call (.fit 7 (some b) true) true, .call (.getState 7 true) true,
   .call (.fit 7 none true) true, .call (.onDataCompleted 7) true, .call (.getState 7 true) true, .call (.completeTraining 7) true]

private def asked₁ : List (Request (Option Str)) := [.call (.transform 33 none true) true]
private def asked₂ : List (Request (Option Str)) :=
  [.call (.transform 9 none true) true, .call (.destroyEstimator 7) true, .call (.transform 9 (some c) true) true]

private def w₁ := (serve (cat .little) (.call (.createEstimator true) true) (luck 0) World.start).2
private def w₂ := (serveAll (cat .little) 1 training w₁).2
private def w₃ := (serve (cat .little) (.call (.createTransformer 7 true) true) (luck 13) w₂).2
private def w₄ := (serveAll (cat .little) 14 asked₁ w₃).2
/-- Version 1.0 and the string "b". -/
private def saved : List UInt8 := [1, 0, 0, 0, 1, 0, 0, 0, 98]
private def v₀ := (serveAll (cat .big) 0 [.call (.createEstimator true) true] World.start).2
private def v₁ := (serve (cat .big) (.call (.loadTransformer (some (saved ++ [5])) true) true) (luck 1) v₀).2

set_option maxRecDepth 100000 in
/-- The hypotheses of `C105_cat_imputer` are met, with machines of different byte order. -/
example : ∃ as₁, Deployment (cat .little) (cat .big) (fun b => Roomy (2 ^ 40) 4096 b.length) [[some b], [none]]
    [.row none] as₁ [.row none, .row (some c)] [some [b], some [c]] := by
  have h := deployment_of (F := cat .little) (F' := cat .big) (room := fun b => Roomy (2 ^ 40) 4096 b.length)
    (bs := [[some b], [none]]) training asked₁ [.call (.createEstimator true) true] asked₂ 7 33 9 13 15 1 saved [5] w₁ w₂ w₃ w₄ v₀ v₁
    rfl rfl rfl rfl rfl rfl (by decide +kernel) (by decide +kernel) (by simp [training]) ?_
    (luck_ok (by decide +kernel) (by decide +kernel) (by omega)) (by decide +kernel) (by decide +kernel) (by simp [asked₁])
    (luck_ok (by decide +kernel) (by decide +kernel) (by omega)) (by decide +kernel) (by decide +kernel)
    (luck_ok (by decide +kernel) (by decide +kernel) (by omega)) (by unfold Roomy; decide) (by decide +kernel) (by decide +kernel)
    (by simp [asked₂])
  · have e : answers 9 (asked₂.zip (serveAll (cat .big) 2 asked₂ v₁).1) = [some [b], some [c]] := by
      decide +kernel
    rw [e] at h
    exact ⟨_, h⟩
  · have : sights 7 (training.zip (serveAll (cat .little) 1 training w₁).1)
        = [.state .training, .fitted [some b] .continue, .state .training, .fitted [none] .continue, .dataCompleted,
           .state .training, .fitted [some b] .continue, .state .training, .fitted [none] .continue, .dataCompleted,
           .state .finished] ++ [.completed] := by decide +kernel
    rw [this]
    exact .loop (by decide) (.next (by decide) (by decide) (.last (by decide) (.next (by decide) (by decide) (.last (by decide)
      (.done (by decide))))))

end Imputing

end Feat.CApi
