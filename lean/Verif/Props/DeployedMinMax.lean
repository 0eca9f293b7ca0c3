import Verif.Props.DeployedFeaturizers
import Verif.Props.Deployable
import Verif.Props.FloatMinMax
import Verif.Props.FloatReload
import Verif.Model.CMinMax
/-
**C105**, **C106** Min-max scaler: trained in one process and used in another.
-/
namespace Feat.CApi
open FloatText FloatScalers
variable {ι O : Type}

/-- The standard training has one outcome. -/
theorem yields_unique {σ : Nat → Type} {α T : Type} {X : Xf T ι ι} {comps : (i : Nat) → Component (σ i) ι α} {n : Nat}
    {mk : AnnotationMaps α → Except Err T} {maps : AnnotationMaps α} {bs : List (List ι)} {r r' : Except Err T}
    (h : FeaturizerYields X comps n mk bs maps r) (h' : FeaturizerYields X comps n mk bs maps r') : r = r' := by
  obtain ⟨N, hN⟩ := h
  obtain ⟨N', hN'⟩ := h'
  obtain ⟨e, he⟩ := hN (N + N') (by omega)
  obtain ⟨e', he'⟩ := hN' (N + N') (by omega)
  have h4 := (Prod.mk.inj (Option.some.inj (he.symm.trans he'))).1
  rcases r with a | a <;> rcases r' with b | b
  · simpa [Except.map] using h4
  · simp [Except.map] at h4
  · simp [Except.map] at h4
  · simpa [Except.map] using h4

/-- A deployed transformer that is a function, but may change when it is saved and loaded. -/
theorem deployed_reread {σ : Nat → Type} {α : Type} {c : ArClass} {X : Xf c.Obj ι ι} {f : c.Obj → ι → Except Err O}
    {comps : (i : Nat) → Component (σ i) ι α} {n : Nat} {mk : AnnotationMaps α → Except Err c.Obj} {maps : AnnotationMaps α}
    {t t' : c.Obj} {host host' : Endian} {space space' : Nat} {place place' : List UInt8 → Nat} {bs : List (List ι)}
    {qs₁ qs₂ : List (Ask ι)} {as₁ as₂ : List (Option (List O))}
    (hy : FeaturizerYields X comps n mk bs maps (.ok t)) (htrip : Becomes c t t')
    (d : Deployment (pipelineIn c X (Xf.ofFun f) comps n mk maps host space place)
      (pipelineIn c X (Xf.ofFun f) comps n mk maps host' space' place')
      (fun b => Roomy space' (place' b) b.length) bs qs₁ as₁ qs₂ as₂) :
    as₁ = repliesOf (fun x => (f t x).toOption.map fun o => [o]) qs₁ ∧
    as₂ = repliesOf (fun x => (f t' x).toOption.map fun o => [o]) qs₂ := by
  obtain ⟨h₀, hl₁, hc, s₁, hd₁, hs, hl₂, ht, s₂, hd₂, hl₃, hsave, g₀, hl₄, hroom, hload, s₃, hd₃⟩ := d
  rename_i es₂ k _ _ _ _ _ _
  obtain ⟨h1, h2⟩ := C105_reread (t' := t') hy h₀ hl₁ hc s₁ hd₁ hs hl₂ ht s₂ hd₂ hl₃ hsave
    (by rw [congrArg Prod.snd (ofFun_alone f t _)]; exact htrip) g₀ hl₄ hroom hload s₃ hd₃
  exact ⟨h1.trans (congrArg Prod.fst (ofFun_alone f t _)), h2.trans (congrArg Prod.fst (ofFun_alone f t' _))⟩

private theorem version_writes : Writes writeVersion [1, 0, 0, 0] :=
  Writes.bind (b₁ := [1, 0]) (b₂ := [0, 0]) (Scalar.writes (1 : UInt16)) (Scalar.writes (0 : UInt16))

private theorem version_reads : Reads readVersion [1, 0, 0, 0] () := by
  refine Reads.bind (b₁ := [1, 0]) (b₂ := [0, 0]) (v := (1 : UInt16)) (Scalar.reads (1 : UInt16)) ?_
  have := Reads.bind (b₁ := [0, 0]) (b₂ := []) (w := ())
    (f := fun minor : UInt16 => if (1 : UInt16) ≠ 1 ∨ minor ≠ 0 then M.throw .runtimeError else pure ())
    (Scalar.reads (0 : UInt16)) (by
    rw [if_neg (by decide)]; exact Reads.pure ())
  exact this

section
variable {T : Type} [FloatArith.FloType T] [FloatArith.Lawful T] [Scalar T]

omit [FloatArith.Lawful T] in
theorem min_max_becomes {t t' : MinMaxScaler T} (h : reloadMinMax T t = .ok t') : Becomes (floatMinMax T).ar t t' := by
  refine ⟨[1, 0, 0, 0] ++ Codec.bytes (t.min, FloatArith.add t.min t.span), ?_, ?_⟩
  · exact Writes.bind version_writes (Codec.writes (t.min, FloatArith.add t.min t.span) ⟨trivial, trivial⟩)
  · refine Reads.bind version_reads ?_
    have := Reads.bind (f := fun p : T × T => liftExcept ((floatMinMax T).make p)) (b₂ := [])
      (Codec.reads (t.min, FloatArith.add t.min t.span) ⟨trivial, trivial⟩) (by
        show Reads (liftExcept (reloadMinMax T t)) [] t'
        rw [h]
        exact Reads.pure t')
    rw [List.append_nil] at this
    exact this

variable {X : Xf (MinMaxScaler T) T T} {host host' : Endian} {space space' : Nat} {place place' : List UInt8 → Nat} {bs : List (List T)}
  {qs₁ qs₂ : List (Ask T)} {as₁ as₂ : List (Option (List F64))}

omit [Scalar T] in
private theorem same_scaler (hne : bs ≠ []) (hb : NoEmptyBatch bs) (hlen : bs.flatten.length < 2 ^ 64) (values : List T)
    (hvalues : values = bs.flatten.filter (fun x => !FloatArith.isNaN x)) (hx : ∀ v ∈ values, FloatText.Finite v)
    (hspread : ∀ a b, Least value values a → Greatest value values b → ∃ d : T, FloatText.Finite d ∧ value d = value b - value a)
    (hv : values ≠ []) {t : MinMaxScaler T}
    (hy : FeaturizerYields X (fun _ => FloatScalers.minMaxComponent (floInput T) 0 (2 ^ 64 - 1)) 1 (FloatScalers.makeMinMax (floInput T) 0)
      bs [[]] (.ok t)) :
    ∃ t', reloadMinMax T t = .ok t' ∧ ∀ x, FloatScalers.execMinMax (floInput T) t' x = FloatScalers.execMinMax (floInput T) t x := by
  have htake : bs.flatten.take (2 ^ 64 - 1) = bs.flatten := List.take_of_length_le (by omega)
  obtain ⟨u, t', h1, h2, h3⟩ := C68_reload_exact 0 (2 ^ 64 - 1) (by decide) bs hne hb [[]] (by simp) rfl values
    (by rw [htake]; exact hvalues) hv hx hspread
  have he := yields_unique (h1 X) hy
  cases he
  exact ⟨t', h2, h3⟩

omit [Scalar T] in
private theorem small_spread {values : List T}
    (hspread : ∀ a b, Least value values a → Greatest value values b → ∃ d : T, FloatText.Finite d ∧ value d = value b - value a) :
    ∀ a b, Least value values a → Greatest value values b → value b - value a < tooLarge T := by
  intro a b ha hb
  obtain ⟨d, hd, he⟩ := hspread a b ha hb
  rw [← he]
  refine lt_of_le_of_lt (le_abs_self _) (FloatArith.rnd_finite_iff.1 ?_)
  rw [FloatArith.rnd_value hd]
  exact (FloatArith.finite_key d).1 hd
end

/-- **C105** (min-max scaler of `double`, with C68) It is trained through the C interface of one process, on finite numbers and NaN whose
spread is a number of the type (as for integers up to `2^52`), and used in this and in another process: both give the same number for
the same input: from 0 for the least to 1 for the greatest training value, in order, near the exact quotient, and NaN for NaN. -/
theorem C105_min_max_double {X : Xf (MinMaxScaler F64) F64 F64} {host host' : Endian} {space space' : Nat}
    {place place' : List UInt8 → Nat} {bs : List (List F64)} {qs₁ qs₂ : List (Ask F64)} {as₁ as₂ : List (Option (List F64))}
    (hne : bs ≠ []) (hb : NoEmptyBatch bs) (hlen : bs.flatten.length < 2 ^ 64) (values : List F64)
    (hvalues : values = bs.flatten.filter (fun x => !FloatArith.isNaN x)) (hx : ∀ v ∈ values, FloatText.Finite v)
    (hspread : ∀ a b, Least value values a → Greatest value values b → ∃ d : F64, FloatText.Finite d ∧ value d = value b - value a)
    (d : Deployment (minMaxIn F64 X host space place) (minMaxIn F64 X host' space' place')
      (fun b => Roomy space' (place' b) b.length) bs qs₁ as₁ qs₂ as₂) :
    values ≠ [] ∧ ∃ f : F64 → F64, as₁ = repliesOf (fun x => some [f x]) qs₁ ∧ as₂ = repliesOf (fun x => some [f x]) qs₂ ∧
      UnitRange FloatText.Finite value values f ∧ WithinExact (1 / 2 ^ 51) FloatText.Finite value values f ∧
      ∀ x, IsNaN x → IsNaN (f x) := by
  have htake : bs.flatten.take (2 ^ 64 - 1) = bs.flatten := List.take_of_length_le (by omega)
  obtain ⟨h1, h2⟩ := C68_double_partial 0 (2 ^ 64 - 1) (by decide) bs hne hb [[]] (by simp) rfl values (by rw [htake]; exact hvalues) hx
    (small_spread hspread)
  have hv : values ≠ [] := by
    intro hv
    obtain ⟨t, ht⟩ := C105_succeeds (c := (floatMinMax F64).ar) (h1 hv X) d
    cases ht
  obtain ⟨t, hy, r1, r2, r3⟩ := h2 hv
  obtain ⟨t', ht', hsame⟩ := same_scaler (X := X) hne hb hlen values hvalues hx hspread hv (hy X)
  obtain ⟨g1, g2⟩ := deployed_reread (c := (floatMinMax F64).ar) (hy X) (min_max_becomes ht') d
  have g2' : as₂ = repliesOf (fun x => some [FloatScalers.execMinMax (floInput F64) t' x]) qs₂ := g2
  simp only [hsame] at g2'
  exact ⟨hv, _, g1, g2', r1, r2, r3⟩

/-- **C105** (min-max scaler of `float`, with C68) Likewise; the results may exceed 1, and differ from the exact quotient, by `2^-23`. -/
theorem C105_min_max_float {X : Xf (MinMaxScaler F32) F32 F32} {host host' : Endian} {space space' : Nat}
    {place place' : List UInt8 → Nat} {bs : List (List F32)} {qs₁ qs₂ : List (Ask F32)} {as₁ as₂ : List (Option (List F64))}
    (hne : bs ≠ []) (hb : NoEmptyBatch bs) (hlen : bs.flatten.length < 2 ^ 64) (values : List F32)
    (hvalues : values = bs.flatten.filter (fun x => !FloatArith.isNaN x)) (hx : ∀ v ∈ values, FloatText.Finite v)
    (hspread : ∀ a b, Least value values a → Greatest value values b → ∃ d : F32, FloatText.Finite d ∧ value d = value b - value a)
    (d : Deployment (minMaxIn F32 X host space place) (minMaxIn F32 X host' space' place')
      (fun b => Roomy space' (place' b) b.length) bs qs₁ as₁ qs₂ as₂) :
    values ≠ [] ∧ ∃ f : F32 → F64, as₁ = repliesOf (fun x => some [f x]) qs₁ ∧ as₂ = repliesOf (fun x => some [f x]) qs₂ ∧
      NearlyUnit (1 / 2 ^ 23) FloatText.Finite value values f ∧ WithinExact (1 / 2 ^ 23) FloatText.Finite value values f ∧
      ∀ x, IsNaN x → IsNaN (f x) := by
  have htake : bs.flatten.take (2 ^ 64 - 1) = bs.flatten := List.take_of_length_le (by omega)
  obtain ⟨h1, h2⟩ := C68_float_partial 0 (2 ^ 64 - 1) (by decide) bs hne hb [[]] (by simp) rfl values (by rw [htake]; exact hvalues) hx
    (small_spread hspread)
  have hv : values ≠ [] := by
    intro hv
    obtain ⟨t, ht⟩ := C105_succeeds (c := (floatMinMax F32).ar) (h1 hv X) d
    cases ht
  obtain ⟨t, hy, r1, r2, r3⟩ := h2 hv
  obtain ⟨t', ht', hsame⟩ := same_scaler (X := X) hne hb hlen values hvalues hx hspread hv (hy X)
  obtain ⟨g1, g2⟩ := deployed_reread (c := (floatMinMax F32).ar) (hy X) (min_max_becomes ht') d
  have g2' : as₂ = repliesOf (fun x => some [FloatScalers.execMinMax (floInput F32) t' x]) qs₂ := g2
  simp only [hsame] at g2'
  exact ⟨hv, _, g1, g2', r1, r2, r3⟩

/-- **C105** (min-max scaler of `double`, with C68 and C97) For finite numbers and NaN whose greatest value and spread are less than half of what
overflows, the second process is at most `3·2^-51` away from exact scaling, if not equal to the first one (cf. C105_min_max_refuted). -/
theorem C105_min_max_double_close {X : Xf (MinMaxScaler F64) F64 F64} {host host' : Endian} {space space' : Nat}
    {place place' : List UInt8 → Nat} {bs : List (List F64)} {qs₁ qs₂ : List (Ask F64)} {as₁ as₂ : List (Option (List F64))}
    (hne : bs ≠ []) (hb : NoEmptyBatch bs) (hlen : bs.flatten.length < 2 ^ 64) (values : List F64)
    (hvalues : values = bs.flatten.filter (fun x => !FloatArith.isNaN x)) (hx : ∀ v ∈ values, FloatText.Finite v)
    (hspread : ∀ a b, Least value values a → Greatest value values b →
      2 * (value b - value a) < tooLarge F64 ∧ 2 * value b < tooLarge F64)
    (d : Deployment (minMaxIn F64 X host space place) (minMaxIn F64 X host' space' place')
      (fun b => Roomy space' (place' b) b.length) bs qs₁ as₁ qs₂ as₂) :
    values ≠ [] ∧ ∃ f g : F64 → F64, as₁ = repliesOf (fun x => some [f x]) qs₁ ∧ as₂ = repliesOf (fun x => some [g x]) qs₂ ∧
      UnitRange FloatText.Finite value values f ∧ WithinExact (1 / 2 ^ 51) FloatText.Finite value values f ∧
      WithinExact (3 / 2 ^ 51) FloatText.Finite value values g ∧ ∀ x, IsNaN x → IsNaN (f x) ∧ IsNaN (g x) := by
  have htake : bs.flatten.take (2 ^ 64 - 1) = bs.flatten := List.take_of_length_le (by omega)
  obtain ⟨h1, h2⟩ := C68_double_partial 0 (2 ^ 64 - 1) (by decide) bs hne hb [[]] (by simp) rfl values (by rw [htake]; exact hvalues) hx
    (fun a b ha hb => by
      have h := (hspread a b ha hb).1
      have h0 := ha.2 b hb.1
      linarith)
  have hv : values ≠ [] := by
    intro hv
    obtain ⟨t, ht⟩ := C105_succeeds (c := (floatMinMax F64).ar) (h1 hv X) d
    cases ht
  obtain ⟨t, hy, r1, r2, r3⟩ := h2 hv
  obtain ⟨u, t', hy', ht', r4, r5⟩ := C97_reload_partial (T := F64) (by decide) 0 (2 ^ 64 - 1) (by decide) bs hne hb [[]] (by simp) rfl values
    (by rw [htake]; exact hvalues) hv hx hspread
  have hu : t = u := Except.ok.inj (yields_unique (hy X) (hy' X))
  subst hu
  obtain ⟨g1, g2⟩ := deployed_reread (c := (floatMinMax F64).ar) (hy X) (min_max_becomes ht') d
  refine ⟨hv, _, _, g1, g2, r1, r2, fun x a b hfx hbx ha hb hab => ?_, fun x hn => ⟨r3 x hn, r5 x hn⟩⟩
  have e1 := r2 x a b hfx hbx ha hb hab
  obtain ⟨p, hp, q, hq, hpx, hxq⟩ := hbx
  have e2 := (r4 x hfx ⟨p, hp, hpx⟩ ⟨q, hq, hxq⟩).2.2
  rw [show (2 : ℚ) ^ (Binary.frac F64 + 1) = 2 ^ 53 from rfl] at e2
  have e3 := abs_sub_le (value (FloatScalers.execMinMax (floInput F64) t' x)) (value (FloatScalers.execMinMax (floInput F64) t x))
    ((value x - value a) / (value b - value a))
  have e4 : (8 / 2 ^ 53 : ℚ) + 1 / 2 ^ 51 = 3 / 2 ^ 51 := by norm_num
  rw [← e4]
  exact e3.trans (add_le_add e2 e1)

/-- **C105** (min-max scaler of `float`, with C68 and C97) Likewise, with `5·2^-23`. -/
theorem C105_min_max_float_close {X : Xf (MinMaxScaler F32) F32 F32} {host host' : Endian} {space space' : Nat}
    {place place' : List UInt8 → Nat} {bs : List (List F32)} {qs₁ qs₂ : List (Ask F32)} {as₁ as₂ : List (Option (List F64))}
    (hne : bs ≠ []) (hb : NoEmptyBatch bs) (hlen : bs.flatten.length < 2 ^ 64) (values : List F32)
    (hvalues : values = bs.flatten.filter (fun x => !FloatArith.isNaN x)) (hx : ∀ v ∈ values, FloatText.Finite v)
    (hspread : ∀ a b, Least value values a → Greatest value values b →
      2 * (value b - value a) < tooLarge F32 ∧ 2 * value b < tooLarge F32)
    (d : Deployment (minMaxIn F32 X host space place) (minMaxIn F32 X host' space' place')
      (fun b => Roomy space' (place' b) b.length) bs qs₁ as₁ qs₂ as₂) :
    values ≠ [] ∧ ∃ f g : F32 → F64, as₁ = repliesOf (fun x => some [f x]) qs₁ ∧ as₂ = repliesOf (fun x => some [g x]) qs₂ ∧
      NearlyUnit (1 / 2 ^ 23) FloatText.Finite value values f ∧ WithinExact (1 / 2 ^ 23) FloatText.Finite value values f ∧
      WithinExact (5 / 2 ^ 23) FloatText.Finite value values g ∧ ∀ x, IsNaN x → IsNaN (f x) ∧ IsNaN (g x) := by
  have htake : bs.flatten.take (2 ^ 64 - 1) = bs.flatten := List.take_of_length_le (by omega)
  obtain ⟨h1, h2⟩ := C68_float_partial 0 (2 ^ 64 - 1) (by decide) bs hne hb [[]] (by simp) rfl values (by rw [htake]; exact hvalues) hx
    (fun a b ha hb => by
      have h := (hspread a b ha hb).1
      have h0 := ha.2 b hb.1
      linarith)
  have hv : values ≠ [] := by
    intro hv
    obtain ⟨t, ht⟩ := C105_succeeds (c := (floatMinMax F32).ar) (h1 hv X) d
    cases ht
  obtain ⟨t, hy, r1, r2, r3⟩ := h2 hv
  obtain ⟨u, t', hy', ht', r4, r5⟩ := C97_reload_partial (T := F32) (by decide) 0 (2 ^ 64 - 1) (by decide) bs hne hb [[]] (by simp) rfl values
    (by rw [htake]; exact hvalues) hv hx hspread
  have hu : t = u := Except.ok.inj (yields_unique (hy X) (hy' X))
  subst hu
  obtain ⟨g1, g2⟩ := deployed_reread (c := (floatMinMax F32).ar) (hy X) (min_max_becomes ht') d
  refine ⟨hv, _, _, g1, g2, r1, r2, fun x a b hfx hbx ha hb hab => ?_, fun x hn => ⟨r3 x hn, r5 x hn⟩⟩
  have e1 := r2 x a b hfx hbx ha hb hab
  obtain ⟨p, hp, q, hq, hpx, hxq⟩ := hbx
  have e2 := (r4 x hfx ⟨p, hp, hpx⟩ ⟨q, hq, hxq⟩).2.2
  rw [show (2 : ℚ) ^ (Binary.frac F32 + 1) = 2 ^ 24 from rfl] at e2
  have e3 := abs_sub_le (value (FloatScalers.execMinMax (floInput F32) t' x)) (value (FloatScalers.execMinMax (floInput F32) t x))
    ((value x - value a) / (value b - value a))
  have e4 : (8 / 2 ^ 24 : ℚ) + 1 / 2 ^ 23 = 5 / 2 ^ 23 := by norm_num
  rw [← e4]
  exact e3.trans (add_le_add e2 e1)

section
variable {T : Type} [FloatArith.FloType T] [FloatArith.Lawful T] [Scalar T]
variable {X : Xf (MinMaxScaler T) T T} {host host' : Endian} {space space' : Nat} {place place' : List UInt8 → Nat} {bs : List (List T)}

omit [FloatArith.Lawful T] in
private theorem min_max_bytes {t : MinMaxScaler T} {b : List UInt8} (h : Writes ((floatMinMax T).ar.save t) b) :
    b.length = 4 + 2 * Scalar.size T := by
  have h' : Writes ((floatMinMax T).ar.save t) ([1, 0, 0, 0] ++ Codec.bytes (t.min, FloatArith.add t.min t.span)) :=
    Writes.bind version_writes (Codec.writes (t.min, FloatArith.add t.min t.span) ⟨trivial, trivial⟩)
  rw [writes_unique h h', List.length_append]
  show 4 + (scalarBytes t.min ++ scalarBytes (FloatArith.add t.min t.span)).length = _
  rw [List.length_append, scalarBytes_length, scalarBytes_length]
  omega

omit [FloatArith.Lawful T] in
private theorem min_max_deploys {t t' : MinMaxScaler T}
    (hy : FeaturizerYields X (fun _ => FloatScalers.minMaxComponent (floInput T) 0 (2 ^ 64 - 1)) 1 (FloatScalers.makeMinMax (floInput T) 0)
      bs [[]] (.ok t)) (h : reloadMinMax T t = .ok t')
    (behind : List UInt8) (hroom : ∀ b : List UInt8, b.length = 4 + 2 * Scalar.size T + behind.length → Roomy space' (place' b) b.length)
    (qs₁ qs₂ : List (Ask T)) (h₁ : qs₁.length < 2 ^ 63) (h₂ : qs₂.length < 2 ^ 63) :
    ∃ as₁ as₂, Deployment (minMaxIn T X host space place) (minMaxIn T X host' space' place')
      (fun b => Roomy space' (place' b) b.length) bs qs₁ as₁ qs₂ as₂ := by
  refine C106_deploys_reread (c := (floatMinMax T).ar) hy (min_max_becomes h) (fun x h => by cases h) (fun x h => by cases h) behind
    (fun bytes hw => ?_) qs₁ qs₂ h₁ h₂
  have hb := min_max_bytes hw
  refine ⟨fun hx => ?_, hroom _ (by rw [List.length_append, hb])⟩
  have := congrArg List.length hx
  rw [List.length_append, hb] at this
  simp at this

/-- **C106** (min-max scaler of `float` and `double`, with C68) If there are values, all finite, whose spread is a number of the type, then
it can be deployed. -/
theorem C106_min_max (hne : bs ≠ []) (hb : NoEmptyBatch bs) (hlen : bs.flatten.length < 2 ^ 64) (values : List T)
    (hvalues : values = bs.flatten.filter (fun x => !FloatArith.isNaN x)) (hv : values ≠ []) (hx : ∀ v ∈ values, FloatText.Finite v)
    (hspread : ∀ a b, Least value values a → Greatest value values b → ∃ d : T, FloatText.Finite d ∧ value d = value b - value a)
    (behind : List UInt8) (hroom : ∀ b : List UInt8, b.length = 4 + 2 * Scalar.size T + behind.length → Roomy space' (place' b) b.length)
    (qs₁ qs₂ : List (Ask T)) (h₁ : qs₁.length < 2 ^ 63) (h₂ : qs₂.length < 2 ^ 63) :
    ∃ as₁ as₂, Deployment (minMaxIn T X host space place) (minMaxIn T X host' space' place')
      (fun b => Roomy space' (place' b) b.length) bs qs₁ as₁ qs₂ as₂ := by
  have htake : bs.flatten.take (2 ^ 64 - 1) = bs.flatten := List.take_of_length_le (by omega)
  obtain ⟨t, t', h1, h2, h3⟩ := C68_reload_exact 0 (2 ^ 64 - 1) (by decide) bs hne hb [[]] (by simp) rfl values
    (by rw [htake]; exact hvalues) hv hx hspread
  exact min_max_deploys (h1 X) h2 behind hroom qs₁ qs₂ h₁ h₂
/-- **C106** (min-max scaler of `float` and `double`, with C97) Likewise if the greatest value and the spread are less than half of what
overflows. -/
theorem C106_min_max_close [FloatWindows.ToDouble T] (hT : 10 ≤ Binary.frac T) (hne : bs ≠ []) (hb : NoEmptyBatch bs) (hlen : bs.flatten.length < 2 ^ 64)
    (values : List T) (hvalues : values = bs.flatten.filter (fun x => !FloatArith.isNaN x)) (hv : values ≠ [])
    (hx : ∀ v ∈ values, FloatText.Finite v)
    (hspread : ∀ a b, Least value values a → Greatest value values b →
      2 * (value b - value a) < tooLarge T ∧ 2 * value b < tooLarge T)
    (behind : List UInt8) (hroom : ∀ b : List UInt8, b.length = 4 + 2 * Scalar.size T + behind.length → Roomy space' (place' b) b.length)
    (qs₁ qs₂ : List (Ask T)) (h₁ : qs₁.length < 2 ^ 63) (h₂ : qs₂.length < 2 ^ 63) :
    ∃ as₁ as₂, Deployment (minMaxIn T X host space place) (minMaxIn T X host' space' place')
      (fun b => Roomy space' (place' b) b.length) bs qs₁ as₁ qs₂ as₂ := by
  have htake : bs.flatten.take (2 ^ 64 - 1) = bs.flatten := List.take_of_length_le (by omega)
  obtain ⟨t, t', h1, h2, h3, -⟩ := C97_reload_partial hT 0 (2 ^ 64 - 1) (by decide) bs hne hb [[]] (by simp) rfl values
    (by rw [htake]; exact hvalues) hv hx hspread
  exact min_max_deploys (h1 X) h2 behind hroom qs₁ qs₂ h₁ h₂
end

/-! Non-vacuity, and what is false without the hypothesis on the spread. -/

private theorem pair_scaler {a b : F64} (ha : FloatText.Finite a) (hb : FloatText.Finite b) (hlt : FloatArith.lt a b = true)
    (X : Xf (MinMaxScaler F64) F64 F64) :
    FeaturizerYields X (fun _ => FloatScalers.minMaxComponent (floInput F64) 0 (2 ^ 64 - 1)) 1 (FloatScalers.makeMinMax (floInput F64) 0)
      [[a, b]] [[]] (newMinMax (floInput F64) a b) := by
  have htake : ([[a, b]] : List (List F64)).flatten.take (2 ^ 64 - 1) = [a, b] := List.take_of_length_le (by simp)
  have h := minMax_trained (ranked_flo (T := F64)) 0 (2 ^ 64 - 1) (by decide) [[a, b]] (by simp)
    (by intro x hx; simp at hx; simp [hx]) [[]] (by simp) rfl
    (by rw [htake]; intro x hx; simp at hx; rcases hx with rfl | rfl; exact .inl ha; exact .inl hb)
  rw [htake] at h
  have hf : ([a, b].filter fun x => !(floInput F64).null x) = [a, b] := by
    simp [(ranked_flo (T := F64)).null_num a ha, (ranked_flo (T := F64)).null_num b hb]
  rw [hf] at h
  obtain ⟨lo, hi, h1, h2, hy⟩ := h.2 (by simp)
  have hlt : value a < value b := ((ranked_flo (T := F64)).lt_num a b ha hb).1 hlt
  have e1 : lo = a := by
    have := h1.1
    simp at this
    rcases this with rfl | rfl
    · rfl
    · have := h1.2 a (by simp); linarith
  have e2 : hi = b := by
    have := h2.1
    simp at this
    rcases this with rfl | rfl
    · have := h2.2 b (by simp); linarith
    · rfl
  have hx := hy X
  rwa [e1, e2] at hx

open FloatArith in
/-- **C105** (min-max scaler, the spread) A min-max scaler of `double` was trained on the numbers 1 and `2^53 + 2`.  In the process that
trained it, the greatest one is scaled to 1; in the one that loads it, to more than 1. -/
theorem C105_min_max_refuted : ∃ (a b : F64) (as₁ as₂ : List F64), FloatText.Finite a ∧ FloatText.Finite b ∧
    Deployment (minMaxIn F64 (Xf.ofFun fun _ x => .ok x) .little (2 ^ 40) (fun _ => 4096))
      (minMaxIn F64 (Xf.ofFun fun _ x => .ok x) .little (2 ^ 40) (fun _ => 4096)) (fun b => Roomy (2 ^ 40) 4096 b.length) [[a, b]]
      [.row b] [some as₁] [.row b] [some as₂] ∧
    ∃ x y, as₁ = [x] ∧ as₂ = [y] ∧ value x = 1 ∧ 1 < value y := by
  have fa : FloatText.Finite (ofInt 1 : F64) := value_one.1
  have fb : FloatText.Finite (ofInt 9007199254740994 : F64) := by unfold FloatText.Finite FloatText.exponent; decide +kernel
  have hy := pair_scaler fa fb (by decide +kernel) (Xf.ofFun fun _ x => .ok x)
  rw [show newMinMax (floInput F64) (ofInt 1) (ofInt 9007199254740994) = .ok ⟨ofInt 1, ofInt 9007199254740992⟩ from
    newMinMax_flo (by decide +kernel) (by decide +kernel)] at hy
  have hr : reloadMinMax F64 ⟨ofInt 1, ofInt 9007199254740992⟩ = .ok ⟨ofInt 1, ofInt 9007199254740991⟩ :=
    newMinMax_flo (by decide +kernel) (by decide +kernel)
  obtain ⟨as₁, as₂, d⟩ := min_max_deploys (host := .little) (host' := .little) (space := 2 ^ 40) (space' := 2 ^ 40)
    (place := fun _ => 4096) (place' := fun _ => 4096) hy hr [] (fun b hb => by
      have hb : b.length = 20 := hb
      simp only [Roomy, hb]
      decide) [.row (ofInt 9007199254740994)] [.row (ofInt 9007199254740994)] (by simp) (by simp)
  obtain ⟨g1, g2⟩ := deployed_reread (c := (floatMinMax F64).ar) hy (min_max_becomes hr) d
  have g1 : as₁ = [some [FloatScalers.execMinMax (floInput F64) ⟨ofInt 1, ofInt 9007199254740992⟩ (ofInt 9007199254740994)]] := g1
  have g2 : as₂ = [some [FloatScalers.execMinMax (floInput F64) ⟨ofInt 1, ofInt 9007199254740991⟩ (ofInt 9007199254740994)]] := g2
  rw [g1, g2] at d
  refine ⟨_, _, _, _, fa, fb, d, _, _, rfl, rfl, ?_, ?_⟩
  · have e : FloatScalers.execMinMax (floInput F64) ⟨ofInt 1, ofInt 9007199254740992⟩ (ofInt 9007199254740994) = ofInt 1 := by decide +kernel
    rw [e, value_one.2]
  · rw [← value_one.2, ← lt_iff value_one.1 (by unfold FloatText.Finite FloatText.exponent; decide +kernel)]
    decide +kernel

open FloatArith in
/-- A min-max scaler of `double` for 3 and 7, and a NaN, on machines of different byte order. -/
example (qs₁ qs₂ : List (Ask F64)) (h₁ : qs₁.length < 2 ^ 63) (h₂ : qs₂.length < 2 ^ 63) :
    ∃ as₁ as₂, Deployment (minMaxIn F64 (Xf.ofFun fun _ x => .ok x) .little (2 ^ 40) (fun _ => 4096))
      (minMaxIn F64 (Xf.ofFun fun _ x => .ok x) .big (2 ^ 40) (fun _ => 4096)) (fun b => Roomy (2 ^ 40) 4096 b.length)
      [[ofInt 3, nan], [ofInt 7]] qs₁ as₁ qs₂ as₂ := by
  have h3 := ofInt_exact (T := F64) (z := 3) (by decide)
  have h7 := ofInt_exact (T := F64) (z := 7) (by decide)
  have h4 := ofInt_exact (T := F64) (z := 4) (by decide)
  have h0 := ofInt_exact (T := F64) (z := 0) (by decide)
  refine C106_min_max (by simp) (by intro b hb; simp at hb; rcases hb with rfl | rfl <;> simp) (by simp) [ofInt 3, ofInt 7]
    (by decide +kernel) (by simp) (by intro v hv; simp at hv; rcases hv with rfl | rfl; exact h3.1; exact h7.1) ?_ [5]
    (fun b hb => ?_) qs₁ qs₂ h₁ h₂
  · intro a b ha hb
    have h1 := ha.1
    have h2 := hb.1
    have h5 := ha.2 _ h2
    simp at h1 h2
    rcases h1 with rfl | rfl <;> rcases h2 with rfl | rfl
    · exact ⟨ofInt 0, h0.1, by rw [h0.2]; norm_num⟩
    · exact ⟨ofInt 4, h4.1, by rw [h4.2, h3.2, h7.2]; norm_num⟩
    · rw [h3.2, h7.2] at h5
      norm_num at h5
    · exact ⟨ofInt 0, h0.1, by rw [h0.2]; norm_num⟩
  · have hb : b.length = 21 := hb
    simp only [Roomy, hb]
    decide

open FloatArith in
/-- The hypotheses of `C106_min_max_close` and `C105_min_max_double_close` are met by 3 and 7. -/
example (qs₁ qs₂ : List (Ask F64)) (h₁ : qs₁.length < 2 ^ 63) (h₂ : qs₂.length < 2 ^ 63) :
    ∃ as₁ as₂, Deployment (minMaxIn F64 (Xf.ofFun fun _ x => .ok x) .little (2 ^ 40) (fun _ => 4096))
      (minMaxIn F64 (Xf.ofFun fun _ x => .ok x) .big (2 ^ 40) (fun _ => 4096)) (fun b => Roomy (2 ^ 40) 4096 b.length)
      [[ofInt 3, nan], [ofInt 7]] qs₁ as₁ qs₂ as₂ ∧
    ∃ f g : F64 → F64, as₁ = repliesOf (fun x => some [f x]) qs₁ ∧ as₂ = repliesOf (fun x => some [g x]) qs₂ ∧
      WithinExact (3 / 2 ^ 51) FloatText.Finite value [ofInt 3, ofInt 7] g := by
  have h3 := ofInt_exact (T := F64) (z := 3) (by decide)
  have h7 := ofInt_exact (T := F64) (z := 7) (by decide)
  have hv : ([ofInt 3, ofInt 7] : List F64) = [[ofInt 3, nan], [ofInt 7]].flatten.filter (fun x => !FloatArith.isNaN x) := by
    decide +kernel
  have hf : ∀ v ∈ ([ofInt 3, ofInt 7] : List F64), FloatText.Finite v := by
    intro v hv; simp at hv; rcases hv with rfl | rfl; exact h3.1; exact h7.1
  have hb : NoEmptyBatch ([[ofInt 3, nan], [ofInt 7]] : List (List F64)) := by
    intro b hb; simp at hb; rcases hb with rfl | rfl <;> simp
  have hs : ∀ a b : F64, Least value [ofInt 3, ofInt 7] a → Greatest value [ofInt 3, ofInt 7] b →
      2 * (value b - value a) < tooLarge F64 ∧ 2 * value b < tooLarge F64 := by
    intro a b ha hb
    have h14 := (rnd_finite_iff (T := F64) (q := ((14 : Int) : ℚ))).1 (by
      rw [← key_ofInt]; exact (finite_key _).1 (ofInt_exact (T := F64) (z := 14) (by decide)).1)
    rw [abs_of_nonneg (by norm_num)] at h14
    have h1 : value a = 3 ∨ value a = 7 := by
      have := ha.1
      simp at this
      rcases this with rfl | rfl
      · exact .inl (by rw [h3.2]; norm_num)
      · exact .inr (by rw [h7.2]; norm_num)
    have h2 : value b = 3 ∨ value b = 7 := by
      have := hb.1
      simp at this
      rcases this with rfl | rfl
      · exact .inl (by rw [h3.2]; norm_num)
      · exact .inr (by rw [h7.2]; norm_num)
    generalize tooLarge F64 = L at *
    push_cast at h14
    constructor <;> rcases h1 with h | h <;> rcases h2 with h' | h' <;> rw [h'] <;> (try rw [h]) <;> linarith only [h14]
  obtain ⟨as₁, as₂, d⟩ := C106_min_max_close (host := .little) (host' := .big) (space := 2 ^ 40) (space' := 2 ^ 40)
    (place := fun _ => 4096) (place' := fun _ => 4096) (X := Xf.ofFun fun _ x => .ok x) (by decide) (by simp) hb (by simp)
    [ofInt 3, ofInt 7] hv (by simp) hf hs [5] (fun b hb => by
      have hb : b.length = 21 := hb
      simp only [Roomy, hb]
      decide) qs₁ qs₂ h₁ h₂
  obtain ⟨-, f, g, g1, g2, -, -, g3, -⟩ := C105_min_max_double_close (by simp) hb (by simp) _ hv hf hs d
  exact ⟨as₁, as₂, d, f, g, g1, g2, g3⟩

/-! ### Integers -/

section
variable {T : Type} [CInt T] [Scalar T]

private theorem integer_made {t : MinMaxScaler T} (lo hi : T) (h : newMinMax (FloatScalers.intInput T) lo hi = .ok t) :
    (minMaxScaler T).make (lo, hi) = .ok (⟨t.min, t.span⟩ : SavedMinMaxScaler T) := by
  unfold newMinMax at h
  simp only [FloatScalers.intInput, decide_eq_true_eq] at h
  simp only [minMaxScaler, gt_iff_lt]
  by_cases hlt : CInt.toInt hi < CInt.toInt lo
  · rw [if_pos hlt] at h
    cases h
  · rw [if_neg hlt] at h ⊢
    rcases ha : CInt.arith (T := T) (CInt.toInt hi - CInt.toInt lo) with e | d
    · simp only [ha] at h
      cases h
    · simp only [ha] at h
      cases h
      rfl

private theorem integer_trips {t : MinMaxScaler T} (lo hi : T) (h : newMinMax (FloatScalers.intInput T) lo hi = .ok t) :
    RoundTrips (integerMinMaxAr T) t := by
  have hs : RoundTrips (minMaxScaler T).ar (⟨t.min, t.span⟩ : SavedMinMaxScaler T) :=
    library_roundTrips (minMaxScaler T) (.minMaxScaler T) (lo, hi) _ (integer_made lo hi h) ⟨trivial, trivial⟩
  obtain ⟨bs, h1, h2, h3⟩ := hs
  have h2 : Reads (minMaxScaler T).load bs (⟨t.min, t.span⟩ : SavedMinMaxScaler T) := h2
  exact ⟨bs, h1, Reads.map (fun s : SavedMinMaxScaler T => (⟨s.min, s.span⟩ : MinMaxScaler T)) h2, Truncs.map h2 h3⟩

omit [Scalar T] in
private theorem made_from (hT : CInt.lo T < CInt.hi T) {bs : List (List T)} (hne : bs ≠ []) (hb : NoEmptyBatch bs)
    {X : Xf (MinMaxScaler T) T T} {t : MinMaxScaler T}
    (hy : FeaturizerYields X (fun _ => FloatScalers.minMaxComponent (FloatScalers.intInput T) 0 (2 ^ 64 - 1)) 1 (FloatScalers.makeMinMax (FloatScalers.intInput T) 0)
      bs [[]] (.ok t)) : ∃ lo hi, newMinMax (FloatScalers.intInput T) lo hi = .ok t := by
  obtain ⟨h1, h2⟩ := minMax_trained (ranked_int hT) 0 (2 ^ 64 - 1) (by decide) bs hne hb [[]] (by simp) rfl fun _ _ => .inl trivial
  by_cases he : (bs.flatten.take (2 ^ 64 - 1)).filter (fun x => !(FloatScalers.intInput T).null x) = []
  · cases yields_unique (h1 he X) hy
  · obtain ⟨lo, hi, -, -, h3⟩ := h2 he
    exact ⟨lo, hi, yields_unique (h3 X) hy⟩

/-- **C105** (min-max scaler of integers, with C68) For values up to `2^53`, and a spread up to `2^53` that fits the type, both processes
give the double next to the exact quotient. -/
theorem C105_min_max_integers (hT : CInt.lo T < CInt.hi T) (hneg : CInt.lo T ≤ 0) {X : Xf (MinMaxScaler T) T T} {host host' : Endian}
    {space space' : Nat} {place place' : List UInt8 → Nat} {bs : List (List T)} {qs₁ qs₂ : List (Ask T)} {as₁ as₂ : List (Option (List F64))}
    (hne : bs ≠ []) (hb : NoEmptyBatch bs) (hlen : bs.flatten.length < 2 ^ 64)
    (hx : ∀ v ∈ bs.flatten, (CInt.toInt v).natAbs ≤ 2 ^ 53)
    (hspread : ∀ a ∈ bs.flatten, ∀ b ∈ bs.flatten, CInt.toInt b - CInt.toInt a ≤ CInt.hi T ∧ CInt.toInt b - CInt.toInt a ≤ 2 ^ 53)
    (d : Deployment (integerMinMaxIn T X host space place) (integerMinMaxIn T X host' space' place')
      (fun b => Roomy space' (place' b) b.length) bs qs₁ as₁ qs₂ as₂) :
    ∃ f : T → F64, as₁ = repliesOf (fun x => some [f x]) qs₁ ∧ as₂ = repliesOf (fun x => some [f x]) qs₂ ∧
      UnitRange (fun _ => True) (fun x : T => (CInt.toInt x : ℚ)) bs.flatten f ∧
      ∀ x a b, Between (fun x : T => (CInt.toInt x : ℚ)) bs.flatten x → Least (fun x : T => (CInt.toInt x : ℚ)) bs.flatten a →
        Greatest (fun x : T => (CInt.toInt x : ℚ)) bs.flatten b → CInt.toInt a < CInt.toInt b →
        IsNearest (((CInt.toInt x : ℚ) - CInt.toInt a) / ((CInt.toInt b : ℚ) - CInt.toInt a)) (f x) := by
  have htake : bs.flatten.take (2 ^ 64 - 1) = bs.flatten := List.take_of_length_le (by omega)
  obtain ⟨t, hy, r1, r2⟩ := C68_integers_partial hT hneg 0 (2 ^ 64 - 1) (by decide) bs hne hb [[]] (by simp) rfl bs.flatten htake.symm hx
    hspread
  obtain ⟨lo, hi, hn⟩ := made_from hT hne hb (hy X)
  obtain ⟨g1, g2⟩ := deployed_function (c := integerMinMaxAr T) (hy X) (integer_trips lo hi hn) d
  exact ⟨_, g1, g2, r1, r2⟩
/-- **C106** (min-max scaler of integers, with C68) In that case, it can be deployed. -/
theorem C106_min_max_integers (hT : CInt.lo T < CInt.hi T) (hneg : CInt.lo T ≤ 0) {X : Xf (MinMaxScaler T) T T} {host host' : Endian}
    {space space' : Nat} {place place' : List UInt8 → Nat} {bs : List (List T)}
    (hne : bs ≠ []) (hb : NoEmptyBatch bs) (hlen : bs.flatten.length < 2 ^ 64)
    (hx : ∀ v ∈ bs.flatten, (CInt.toInt v).natAbs ≤ 2 ^ 53)
    (hspread : ∀ a ∈ bs.flatten, ∀ b ∈ bs.flatten, CInt.toInt b - CInt.toInt a ≤ CInt.hi T ∧ CInt.toInt b - CInt.toInt a ≤ 2 ^ 53)
    (behind : List UInt8) (hroom : ∀ b : List UInt8, b.length = 4 + 2 * Scalar.size T + behind.length → Roomy space' (place' b) b.length)
    (qs₁ qs₂ : List (Ask T)) (h₁ : qs₁.length < 2 ^ 63) (h₂ : qs₂.length < 2 ^ 63) :
    ∃ as₁ as₂, Deployment (integerMinMaxIn T X host space place) (integerMinMaxIn T X host' space' place')
      (fun b => Roomy space' (place' b) b.length) bs qs₁ as₁ qs₂ as₂ := by
  have htake : bs.flatten.take (2 ^ 64 - 1) = bs.flatten := List.take_of_length_le (by omega)
  obtain ⟨t, hy, -⟩ := C68_integers_partial hT hneg 0 (2 ^ 64 - 1) (by decide) bs hne hb [[]] (by simp) rfl bs.flatten htake.symm hx
    hspread
  obtain ⟨lo, hi, hn⟩ := made_from hT hne hb (hy X)
  refine C106_deploys (c := integerMinMaxAr T) (hy X) (integer_trips lo hi hn) (fun x h => by cases h) behind (fun bytes hw => ?_) qs₁ qs₂
    h₁ h₂
  have hb : bytes.length = 4 + 2 * Scalar.size T := by
    have hv : Writes writeVersion [1, 0, 0, 0] :=
      Writes.bind (b₁ := [1, 0]) (b₂ := [0, 0]) (Scalar.writes (1 : UInt16)) (Scalar.writes (0 : UInt16))
    rw [writes_unique hw (Writes.bind hv (Codec.writes (t.min, (CInt.ofInt (CInt.toInt t.min + CInt.toInt t.span) : T))
      ⟨trivial, trivial⟩)), List.length_append]
    show 4 + (scalarBytes t.min ++ scalarBytes (CInt.ofInt (CInt.toInt t.min + CInt.toInt t.span) : T)).length = _
    rw [List.length_append, scalarBytes_length, scalarBytes_length]
    omega
  refine ⟨fun hx => ?_, hroom _ (by rw [List.length_append, hb])⟩
  have := congrArg List.length hx
  rw [List.length_append, hb] at this
  simp at this
end

/-- A min-max scaler of `int32_t` for -4, 3 and 9. -/
example (qs₁ qs₂ : List (Ask Int32)) (h₁ : qs₁.length < 2 ^ 63) (h₂ : qs₂.length < 2 ^ 63) :
    ∃ as₁ as₂, Deployment (integerMinMaxIn Int32 (Xf.ofFun fun _ x => .ok x) .little (2 ^ 40) (fun _ => 4096))
      (integerMinMaxIn Int32 (Xf.ofFun fun _ x => .ok x) .big (2 ^ 40) (fun _ => 4096)) (fun b => Roomy (2 ^ 40) 4096 b.length)
      [[-4, 3], [9]] qs₁ as₁ qs₂ as₂ := by
  refine C106_min_max_integers (by decide) (by decide) (by simp) (by intro b hb; simp at hb; rcases hb with rfl | rfl <;> simp) (by simp)
    (by decide +kernel) (by decide +kernel) [5] (fun b hb => ?_) qs₁ qs₂ h₁ h₂
  have hb : b.length = 13 := hb
  simp only [Roomy, hb]
  decide

end Feat.CApi
