import Verif.Model.Transformers
import Verif.Props.Codec
/-
C07 foreign versions are rejected, C08 saved transformers reload.
-/
namespace Feat

/-- The transformers of the library, for every type they are instantiated with. -/
inductive InLibrary : TClass → Prop
  | oneHot (K) [DecidableEq K] [Traits K] [Fits K] [Codec K] : InLibrary (oneHot K)
  | labelEncoder (K) [DecidableEq K] [Traits K] [Fits K] [Codec K] : InLibrary (labelEncoder K)
  | numericalize (K) [DecidableEq K] [Traits K] [Fits K] [Codec K] : InLibrary (numericalize K)
  | hashOneHot : InLibrary hashOneHot
  | minMaxScaler (T) [CInt T] [Scalar T] : InLibrary (minMaxScaler T)
  | maxAbsScaler (T) [Scalar T] : InLibrary (maxAbsScaler T)
  | robustScaler (T) [Scalar T] : InLibrary (robustScaler T)
  | standardScaler : InLibrary standardScaler
  | normalizer : InLibrary normalizer
  | projection (T) [Traits T] [Fits T] [Codec T] (c) : InLibrary (projection T c)
  | lagLead : InLibrary lagLead
  | rollingWindow : InLibrary rollingWindow
  | forwardFill (T) [Traits T] [Fits T] [Codec T] : InLibrary (forwardFill T)
  | backwardFill (T) [Traits T] [Fits T] [Codec T] : InLibrary (backwardFill T)
  | imputer (T) [Traits T] [Fits T] [Codec T] : InLibrary (imputer T)
  | shortGrainDropper : InLibrary shortGrainDropper
  | stringConversion (n) : InLibrary (stringConversion n)
  | inferenceOnly : InLibrary inferenceOnly
  | tfidf : InLibrary tfidf
  | timeSeriesImputer (q) (hq : 0 < q) : InLibrary (timeSeriesImputer q)
  | sampleAdd : InLibrary sampleAdd
  | dateTime (lookup) : InLibrary (dateTime lookup)

/-! ### C07 -/

/-- Any two bytes are the encoding of a 16-bit number. -/
private theorem two_bytes (a b : UInt8) :
    scalarBytes (UInt16.ofNat (a.toNat + 256 * b.toNat)) = [a, b] := by
  have ha := a.toNat_lt
  have hb := b.toNat_lt
  have h : (UInt16.ofNat (a.toNat + 256 * b.toNat)).toNat = a.toNat + 256 * b.toNat := by
    rw [UInt16.toNat_ofNat']; omega
  show leBytes 2 (UInt16.ofNat (a.toNat + 256 * b.toNat)).toNat = [a, b]
  rw [h]
  simp only [leBytes]
  congr 1
  · apply UInt8.toNat_inj.1; rw [UInt8.toNat_ofNat']; omega
  · congr 1
    apply UInt8.toNat_inj.1; rw [UInt8.toNat_ofNat']; omega

/-- Reading a 16-bit number from fewer than two bytes throws. -/
private theorem u16_short (h : Endian) (space base : Nat) (pre bs : List UInt8)
    (hs : bs.length < 2) (hroom : Roomy space base ((pre ++ bs).length + 2)) :
    ∃ e a', Scalar.read UInt16 (.rd h space base (pre ++ bs) pre.length) = (.error e, a') ∧
      e.isException := by
  obtain ⟨c, d, hc⟩ : ∃ c d, ([c, d] : List UInt8).take bs.length = bs := by
    match bs, hs with
    | [], _ => exact ⟨0, 0, rfl⟩
    | [x], _ => exact ⟨x, 0, rfl⟩
  have := Scalar.truncs (UInt16.ofNat (c.toNat + 256 * d.toNat)) h space base pre bs.length
  rw [two_bytes, hc] at this
  apply this hs
  unfold Roomy at *
  simp only [List.length_append, List.length_cons, List.length_nil] at *
  omega

/-- Reading a 16-bit number from two bytes. -/
private theorem u16_two (h : Endian) (space base : Nat) (pre : List UInt8) (a b : UInt8)
    (rest : List UInt8) (hroom : Roomy space base (pre ++ a :: b :: rest).length) :
    Scalar.read UInt16 (.rd h space base (pre ++ a :: b :: rest) pre.length)
      = (.ok (UInt16.ofNat (a.toNat + 256 * b.toNat)),
         .rd h space base (pre ++ a :: b :: rest) (pre ++ [a, b]).length) := by
  have := Scalar.reads (UInt16.ofNat (a.toNat + 256 * b.toNat)) h space base pre rest
  rw [two_bytes] at this
  simpa using this (by simpa using hroom)

private theorem readVersion_rejects (h : Endian) (space base : Nat) (pre bs : List UInt8)
    (hbad : bs.take 4 ≠ [1, 0, 0, 0]) (hroom : Roomy space base ((pre ++ bs).length + 2)) :
    ∃ e a', readVersion (.rd h space base (pre ++ bs) pre.length) = (.error e, a') ∧
      e.isException := by
  have hroom' : Roomy space base (pre ++ bs).length := by unfold Roomy at *; omega
  unfold readVersion
  match bs, hbad, hroom, hroom' with
  | [], _, hr, _ | [_], _, hr, _ =>
    obtain ⟨e, a', he, hx⟩ := u16_short h space base pre _ (by simp) hr
    exact ⟨e, a', by rw [M.bind_error _ he], hx⟩
  | a :: b :: rest, hbad, hr, hr' =>
    rw [M.bind_ok _ (u16_two h space base pre a b rest hr')]
    have e1 : pre ++ a :: b :: rest = pre ++ [a, b] ++ rest := by simp
    rw [e1] at hr hr' ⊢
    match rest, hbad, hr, hr' with
    | [], _, hr, _ | [_], _, hr, _ =>
      obtain ⟨e, a', he, hx⟩ := u16_short h space base (pre ++ [a, b]) _ (by simp) hr
      exact ⟨e, a', by rw [M.bind_error _ he], hx⟩
    | c :: d :: rest, hbad, hr, hr' =>
      rw [M.bind_ok _ (u16_two h space base (pre ++ [a, b]) c d rest hr')]
      have hne : UInt16.ofNat (a.toNat + 256 * b.toNat) ≠ 1 ∨
          UInt16.ofNat (c.toNat + 256 * d.toNat) ≠ 0 := by
        by_contra hcon
        rw [not_or, not_not, not_not] at hcon
        obtain ⟨h1, h2⟩ := hcon
        have h3 := two_bytes a b
        have h4 := two_bytes c d
        rw [h1] at h3; rw [h2] at h4
        apply hbad
        have h5 : scalarBytes (1 : UInt16) = [1, 0] := by decide
        have h6 : scalarBytes (0 : UInt16) = [0, 0] := by decide
        rw [h5] at h3; rw [h6] at h4
        simp only [List.cons.injEq] at h3 h4
        obtain ⟨rfl, rfl, _⟩ := h3
        obtain ⟨rfl, rfl, _⟩ := h4
        simp
      rw [if_pos hne]
      exact ⟨.runtimeError, _, rfl, trivial⟩

/-- **C07** For every transformer of the library (the standard scaler has no version and is the only
exception): loading from a reading position where the next bytes are not exactly version (1, 0) as two
little-endian 16-bit numbers — or are fewer than four — throws, and never yields a transformer. -/
theorem C07_foreign_version (c : TClass) (hc : InLibrary c) (hv : c ≠ standardScaler)
    (h : Endian) (space base : Nat) (pre bs : List UInt8)
    (hbad : bs.take 4 ≠ [1, 0, 0, 0]) (hroom : Roomy space base ((pre ++ bs).length + 2)) :
    ∃ e a', c.load (.rd h space base (pre ++ bs) pre.length) = (.error e, a') ∧ e.isException := by
  have hver : c.versioned = true := by cases hc <;> first | rfl | exact absurd rfl hv
  obtain ⟨e, a', he, hx⟩ := readVersion_rejects h space base pre bs hbad hroom
  refine ⟨e, a', ?_, hx⟩
  unfold TClass.load
  rw [if_pos hver]
  exact M.bind_error _ he

/-- The hypotheses are met: a one-hot encoder over strings and a buffer with version (1, 1). -/
example : InLibrary (oneHot Str) ∧ oneHot Str ≠ standardScaler ∧
    ([1, 0, 1, 0, 7] : List UInt8).take 4 ≠ [1, 0, 0, 0] ∧ Roomy (2 ^ 64) 4096 7 := by
  refine ⟨.oneHot Str, ?_, by decide, by unfold Roomy; decide⟩
  intro h
  have := congrArg TClass.versioned h
  exact absurd this (by decide)

/-! ### C08 -/

/-- The bytes `save` writes into a fresh archive (`none` if it throws). -/
def savedBytes (c : TClass) (h : Endian) (space : Nat) (t : c.Obj) : Option (List UInt8) :=
  match c.save t (Archive.mkWriter h space) with
  | (.ok _, a) => some a.buf
  | (.error _, _) => none

/-- What has to be shown for each class. -/
structure Lawful (c : TClass) where
  codec : Codec c.Params
  back : ∀ p t, c.make p = .ok t → Fits.fits p →
    Fits.fits (c.toArchive t) ∧ c.make (c.toArchive t) = .ok t

private theorem version_writes : Writes writeVersion [1, 0, 0, 0] :=
  Writes.bind (b₁ := [1, 0]) (b₂ := [0, 0]) (Scalar.writes (1 : UInt16)) (Scalar.writes (0 : UInt16))

private theorem version_reads : Reads readVersion [1, 0, 0, 0] () := by
  refine Reads.bind (b₁ := [1, 0]) (b₂ := [0, 0]) (v := (1 : UInt16)) (Scalar.reads (1 : UInt16)) ?_
  have := Reads.bind (b₁ := [0, 0]) (b₂ := []) (w := ())
    (f := fun minor : UInt16 => if (1 : UInt16) ≠ 1 ∨ minor ≠ 0 then M.throw .runtimeError else pure ())
    (Scalar.reads (0 : UInt16)) (by
    rw [if_neg (by decide)]; exact Reads.pure ())
  exact this

private theorem version_truncs : Truncs readVersion [1, 0, 0, 0] :=
  Truncs.bind (b₁ := [1, 0]) (b₂ := [0, 0]) (v := (1 : UInt16)) (Scalar.reads (1 : UInt16))
    (Scalar.truncs (1 : UInt16))
    (Truncs.map (v := (0 : UInt16)) (Scalar.reads (0 : UInt16)) (Scalar.truncs (0 : UInt16)))

theorem lawful_trip {c : TClass} (L : Lawful c) (p : c.Params) (t : c.Obj)
    (hp : c.make p = .ok t) (hf : Fits.fits p) :
    ∃ bs, Writes (c.save t) bs ∧ Reads c.load bs t ∧ Truncs c.load bs := by
  have := L.codec
  obtain ⟨h1, h2⟩ := L.back p t hp hf
  have hr : Reads ((Traits.deserialize : M Archive c.Params) >>= fun p => liftExcept (c.make p))
      (Codec.bytes (c.toArchive t)) t := by
    have := Reads.bind (f := fun p => liftExcept (c.make p)) (b₂ := [])
      (Codec.reads (c.toArchive t) h1) (by rw [h2]; exact Reads.pure t)
    simpa using this
  have ht : Truncs ((Traits.deserialize : M Archive c.Params) >>= fun p => liftExcept (c.make p))
      (Codec.bytes (c.toArchive t)) :=
    Truncs.map (Codec.reads (c.toArchive t) h1) (Codec.truncs (c.toArchive t) h1)
  by_cases hv : c.versioned = true
  · refine ⟨[1, 0, 0, 0] ++ Codec.bytes (c.toArchive t), ?_, ?_, ?_⟩
    · unfold TClass.save; rw [if_pos hv]
      exact Writes.bind version_writes (Codec.writes _ h1)
    · unfold TClass.load; rw [if_pos hv]
      exact Reads.bind version_reads hr
    · unfold TClass.load; rw [if_pos hv]
      exact Truncs.bind version_reads version_truncs ht
  · refine ⟨Codec.bytes (c.toArchive t), ?_, ?_, ?_⟩
    · unfold TClass.save; rw [if_neg hv]; exact Codec.writes _ h1
    · unfold TClass.load; rw [if_neg hv]; exact hr
    · unfold TClass.load; rw [if_neg hv]; exact ht

instance : Codec Unit where
  bytes _ := []
  writes _ _ := Writes.pure
  reads _ _ := Reads.pure ()
  truncs _ _ := Truncs.nil _

private theorem duration_des (q : Nat) : (Traits.deserialize : M Archive (Duration q))
    = (readUp q >>= fun t => pure ⟨t⟩) := rfl

private theorem duration_back (q : Nat) (d : Duration q) (hd : (q : Int) ∣ d.ticks.toInt) :
    Int64.ofInt (d.ticks.toInt.tdiv q * q) = d.ticks := by
  rw [Int.tdiv_mul_cancel hd]; simp

@[instance_reducible] private def durationCodec (q : Nat) (hq : 0 < q) : Codec (Duration q) where
  bytes d := scalarBytes (castDown q d.ticks)
  writes d _ := Scalar.writes _
  reads d hd := by
    have h := Reads.map (Duration.mk (perMicro := q)) (readUp_reads q hq d.ticks)
    rw [duration_back q d hd] at h
    exact h
  truncs d hd := by
    rw [duration_des]
    exact Truncs.map (readUp_reads q hq d.ticks)
      (Truncs.map (Scalar.reads (castDown q d.ticks)) (Scalar.truncs (castDown q d.ticks)))

/-! #### Per class -/

theorem minElem_le (x : Int) (l : List Int) : minElem x l ≤ x ∧ ∀ y ∈ l, minElem x l ≤ y := by
  induction l generalizing x with
  | nil => simp [minElem]
  | cons z zs ih =>
    simp only [minElem]
    obtain ⟨h1, h2⟩ := ih (if z < x then z else x)
    have h3 : (if z < x then z else x) ≤ x ∧ (if z < x then z else x) ≤ z := by
      split <;> omega
    refine ⟨by omega, ?_⟩
    intro y hy
    rcases List.mem_cons.1 hy with rfl | hy
    · omega
    · exact h2 y hy

theorem minElem_mem (x : Int) (l : List Int) : minElem x l = x ∨ minElem x l ∈ l := by
  induction l generalizing x with
  | nil => simp [minElem]
  | cons z zs ih =>
    simp only [minElem]
    rcases ih (if z < x then z else x) with h | h
    · rw [h]; split <;> simp
    · exact .inr (by simp [h])

private theorem minMax_back {T : Type} [CInt T] [Scalar T] (p : T × T) (t : SavedMinMaxScaler T)
    (h : (minMaxScaler T).make p = .ok t) : (minMaxScaler T).toArchive t = p := by
  obtain ⟨lo, hi⟩ := p
  simp only [minMaxScaler] at h ⊢
  split at h
  · cases h
  · unfold CInt.arith at h
    split at h
    · rename_i span hs
      cases h
      split at hs
      · cases hs
      · cases hs
        have e1 : CInt.ofInt (T := T) (CInt.toInt lo +
            CInt.toInt (CInt.ofInt (T := T) (CInt.toInt hi - CInt.toInt lo))) = hi := by
          rw [Int.add_comm, CInt.ofInt_congr, Int.sub_add_cancel, CInt.ofInt_toInt]
        exact Prod.ext rfl e1
    · cases h

private theorem lagLead_back (p : UInt32 × List Int64) (t : LagLeadParams)
    (h : lagLead.make p = .ok t)
    (hf : ∀ δ ∈ p.2, -2 ^ 31 ≤ δ.toInt ∧ δ.toInt < 2 ^ 31) : lagLead.toArchive t = p := by
  obtain ⟨hz, ds⟩ := p
  simp only [lagLead] at h ⊢
  split at h
  · cases h
  · split at h
    · cases h
    · rename_i d ds' hd
      split at h
      · cases h
      · rename_i hub
        cases h
        simp only
        refine Prod.ext rfl ?_
        simp only
        rw [← hd, List.map_map, List.map_map]
        have hb : ∀ δ ∈ d :: ds', -2 ^ 31 ≤ δ ∧ δ < 2 ^ 31 := by
          rw [← hd]; intro δ hδ
          obtain ⟨x, hx, rfl⟩ := List.mem_map.1 hδ
          exact hf x hx
        obtain ⟨m1, m2⟩ := minElem_le d ds'
        have m3 : minElem d ds' ∈ d :: ds' := by
          rcases minElem_mem d ds' with h | h
          · rw [h]; simp
          · simp [h]
        have m4 := hb _ m3
        have hod : ((CInt.ofInt (-(if minElem d ds' < 0 then minElem d ds' else 0)) : UInt32).toNat : Int)
            = -(if minElem d ds' < 0 then minElem d ds' else 0) := by
          apply CInt.toInt_ofInt (T := UInt32)
          · show (0 : Int) ≤ _; split <;> omega
          · show _ ≤ (4294967295 : Int); split <;> omega
        conv => rhs; rw [← List.map_id ds]
        apply List.map_congr_left
        intro δ hδ
        have hδ' : δ.toInt ∈ d :: ds' := by rw [← hd]; exact List.mem_map_of_mem hδ
        have hle : minElem d ds' ≤ δ.toInt := by
          rcases List.mem_cons.1 hδ' with h | h
          · rw [h]; exact m1
          · exact m2 _ h
        have hrange := hb _ hδ'
        simp only [Function.comp, id, hod]
        have ho : ((CInt.ofInt (δ.toInt + -(if minElem d ds' < 0 then minElem d ds' else 0)) : UInt32).toNat : Int)
            = δ.toInt + -(if minElem d ds' < 0 then minElem d ds' else 0) := by
          apply CInt.toInt_ofInt (T := UInt32)
          · show (0 : Int) ≤ _; split <;> omega
          · show _ ≤ (4294967295 : Int); split <;> omega
        rw [ho]
        rw [show δ.toInt + -(if minElem d ds' < 0 then minElem d ds' else 0)
          - -(if minElem d ds' < 0 then minElem d ds' else 0) = δ.toInt by omega]
        simp

@[instance_reducible] private def lagLeadCodec : Codec lagLead.Params :=
  have up : ∀ v : UInt32 × List Int64, lagLead.fits.fits v → Fits.fits v :=
    fun _ hv => ⟨trivial, hv.1, fun _ _ => trivial⟩
  { bytes := fun v => Codec.bytes (T := UInt32 × List Int64) v
    writes := fun v hv => Codec.writes (T := UInt32 × List Int64) v (up v hv)
    reads := fun v hv => Codec.reads (T := UInt32 × List Int64) v (up v hv)
    truncs := fun v hv => Codec.truncs (T := UInt32 × List Int64) v (up v hv) }

theorem lawful (c : TClass) (hc : InLibrary c) : Nonempty (Lawful c) := by
  cases hc with
  | oneHot K =>
    refine ⟨⟨inferInstanceAs (Codec (UMap K UInt32 × Bool)), ?_⟩⟩
    intro p t h hf
    simp only [oneHot] at h ⊢
    split at h <;> cases h
    rename_i hne
    exact ⟨hf, by rw [if_neg hne]⟩
  | labelEncoder K =>
    refine ⟨⟨inferInstanceAs (Codec (UMap K UInt32 × Bool)), ?_⟩⟩
    intro p t h hf
    simp only [labelEncoder] at h ⊢
    cases h; exact ⟨hf, by trivial⟩
  | numericalize K =>
    refine ⟨⟨inferInstanceAs (Codec (UMap K UInt32)), ?_⟩⟩
    intro p t h hf
    simp only [numericalize] at h ⊢
    cases h; exact ⟨hf, by trivial⟩
  | hashOneHot =>
    refine ⟨⟨inferInstanceAs (Codec (UInt32 × UInt32)), ?_⟩⟩
    intro p t h hf
    simp only [hashOneHot] at h ⊢
    split at h <;> cases h
    rename_i hne
    exact ⟨hf, by rw [if_neg hne]⟩
  | minMaxScaler T =>
    refine ⟨⟨inferInstanceAs (Codec (T × T)), ?_⟩⟩
    intro p t h hf
    rw [minMax_back p t h]
    exact ⟨hf, h⟩
  | maxAbsScaler T =>
    refine ⟨⟨inferInstanceAs (Codec T), ?_⟩⟩
    intro p t h hf
    simp only [maxAbsScaler] at h ⊢
    cases h; exact ⟨hf, by trivial⟩
  | sampleAdd =>
    refine ⟨⟨inferInstanceAs (Codec UInt32), ?_⟩⟩
    intro p t h hf
    simp only [sampleAdd] at h ⊢
    cases h; exact ⟨hf, by trivial⟩
  | robustScaler T =>
    refine ⟨⟨inferInstanceAs (Codec (T × T)), ?_⟩⟩
    intro p t h hf
    simp only [robustScaler] at h ⊢
    cases h; exact ⟨hf, by trivial⟩
  | standardScaler =>
    refine ⟨⟨inferInstanceAs (Codec (F64 × F64)), ?_⟩⟩
    intro p t h hf
    simp only [standardScaler] at h ⊢
    split at h <;> cases h
    rename_i hne
    exact ⟨hf, by rw [if_neg hne]⟩
  | normalizer =>
    refine ⟨⟨inferInstanceAs (Codec (List F64)), ?_⟩⟩
    intro p t h hf
    simp only [normalizer] at h ⊢
    split at h
    · cases h
    · split at h <;> cases h
      rename_i h1 h2
      exact ⟨hf, by rw [if_neg h1, if_neg h2]⟩
  | projection T cm =>
    refine ⟨⟨inferInstanceAs (Codec (Mat T cm)), ?_⟩⟩
    intro p t h hf
    simp only [projection] at h ⊢
    split at h <;> cases h
    rename_i hne
    exact ⟨hf, by rw [if_neg hne]⟩
  | lagLead =>
    refine ⟨⟨lagLeadCodec, ?_⟩⟩
    intro p t h hf
    rw [lagLead_back p t h hf.2]
    exact ⟨hf, h⟩
  | rollingWindow =>
    refine ⟨⟨inferInstanceAs (Codec (UInt8 × UInt32 × UInt32 × UInt32)), ?_⟩⟩
    intro p t h hf
    simp only [rollingWindow] at h ⊢
    repeat' split at h
    all_goals cases h
    rename_i h1 h2 h3 h4 h5
    exact ⟨hf, by rw [if_neg h1, if_neg h2, if_neg h3, if_neg h4, if_neg h5]⟩
  | forwardFill T =>
    refine ⟨⟨inferInstanceAs (Codec (Option T)), ?_⟩⟩
    intro p t h hf
    simp only [forwardFill] at h ⊢
    cases h; exact ⟨hf, by trivial⟩
  | backwardFill T =>
    refine ⟨⟨inferInstanceAs (Codec (Option T)), ?_⟩⟩
    intro p t h hf
    simp only [backwardFill] at h ⊢
    cases h; exact ⟨hf, by trivial⟩
  | imputer T =>
    refine ⟨⟨inferInstanceAs (Codec T), ?_⟩⟩
    intro p t h hf
    simp only [imputer] at h ⊢
    cases h; exact ⟨hf, by trivial⟩
  | shortGrainDropper =>
    refine ⟨⟨inferInstanceAs (Codec (USet (List Str))), ?_⟩⟩
    intro p t h hf
    simp only [shortGrainDropper] at h ⊢
    cases h; exact ⟨hf, by trivial⟩
  | stringConversion n =>
    refine ⟨⟨inferInstanceAs (Codec Bool), ?_⟩⟩
    intro p t h hf
    simp only [stringConversion] at h ⊢
    split at h <;> cases h
    rename_i hne
    exact ⟨hf, by rw [if_neg hne]⟩
  | inferenceOnly =>
    refine ⟨⟨inferInstanceAs (Codec Unit), ?_⟩⟩
    intro p t h hf
    exact ⟨trivial, rfl⟩
  | tfidf =>
    refine ⟨⟨inferInstanceAs (Codec TfidfParams), ?_⟩⟩
    intro p t h hf
    simp only [tfidf] at h ⊢
    split at h
    · cases h
    · split at h <;> cases h
      rename_i h1 h2
      exact ⟨hf, by rw [if_neg h1, if_neg h2]⟩
  | timeSeriesImputer q hq =>
    have := durationCodec q hq
    refine ⟨⟨inferInstanceAs
      (Codec (Duration q × List UInt32 × UInt8 × OMap (List Str) (List F64) × Bool)), ?_⟩⟩
    intro p t h hf
    simp only [timeSeriesImputer] at h ⊢
    repeat' split at h
    all_goals cases h
    rename_i h1 h2 h3 h4
    exact ⟨hf, by rw [if_neg h1, if_neg h2, if_neg h3, if_neg h4]⟩
  | dateTime lookup =>
    refine ⟨⟨inferInstanceAs (Codec Str), ?_⟩⟩
    intro p t h hf
    simp only [dateTime] at h ⊢
    split at h
    · cases h
      rename_i h1
      exact ⟨hf, by rw [if_pos h1]⟩
    · rename_i h1
      split at h <;> cases h
      rename_i h2
      exact ⟨hf, by rw [if_neg h1, h2]⟩

/-- **C08** (partial: see `C08_float_min_max`) For every transformer class of the library and all
parameters `p` its constructor accepts (collections below 2^32 elements, lag/lead offsets below 2^31,
frequencies in whole microseconds): `save` succeeds, and loading what it wrote — on any host, at any
address, whatever bytes precede and follow — yields an equal transformer and consumes exactly the saved
bytes; cut anywhere before the end, loading throws.  The min-max scaler is covered for integer inputs. -/
theorem C08_reload_partial (c : TClass) (hc : InLibrary c) (p : c.Params) (t : c.Obj)
    (hp : c.make p = .ok t) (hf : Fits.fits p) (hw : Endian) (space : Nat) :
    ∃ bs, savedBytes c hw space t = some bs ∧
      (∀ hr base pre post, Roomy space base (pre ++ bs ++ post).length →
        c.load (.rd hr space base (pre ++ bs ++ post) pre.length)
          = (.ok t, Archive.rd hr space base (pre ++ bs ++ post) (pre ++ bs).length)) ∧
      (∀ hr base pre k, k < bs.length → Roomy space base (pre ++ bs).length →
        ∃ e a', c.load (.rd hr space base (pre ++ bs.take k) pre.length) = (.error e, a') ∧
          e.isException) := by
  obtain ⟨L⟩ := lawful c hc
  obtain ⟨bs, h1, h2, h3⟩ := lawful_trip L p t hp hf
  refine ⟨bs, ?_, fun hr base pre post h => h2 hr space base pre post h,
    fun hr base pre k hk h => h3 hr space base pre k hk h⟩
  unfold savedBytes
  rw [h1 _ rfl]
  simp [Archive.mkWriter]

/-- The hypotheses are met by a lag/lead operator with lags -3, 0 and a lead 2, whose saved bytes are: -/
example : ∃ t, lagLead.make (4, [-3, 0, 2]) = .ok t ∧ lagLead.fits.fits (4, [-3, 0, 2]) ∧
    t.offsetDelta = 3 ∧ t.offsets = [0, 3, 5] ∧
    savedBytes lagLead .big (2 ^ 64) t = some ([1,0,0,0] ++ [4,0,0,0] ++ [3,0,0,0] ++
      [253,255,255,255,255,255,255,255] ++ [0,0,0,0,0,0,0,0] ++ [2,0,0,0,0,0,0,0]) := by
  refine ⟨⟨4, 3, [0, 3, 5], 9⟩, by rfl, ⟨by decide, by decide +kernel⟩, rfl, rfl,
    by decide +kernel⟩

/-- Another: an 8-bit min-max scaler whose span wraps (-100 to 100) still reloads. -/
example : (minMaxScaler Int8).make (-100, 100) = .ok ⟨-100, -56⟩ ∧
    (minMaxScaler Int8).toArchive ⟨-100, -56⟩ = (-100, 100) := ⟨rfl, rfl⟩

/-! #### Floating point min-max scalers -/

/-- Round an integer to `p` significant bits, to nearest, ties to even: IEEE 754 arithmetic of
precision `p` on integers in its exponent range. -/
def roundSig (p : Nat) (x : Int) : Int :=
  let m := x.natAbs
  let e := Nat.log2 m + 1 - p
  let q := m / 2 ^ e
  let r := m % 2 ^ e
  let q' := if 2 * r > 2 ^ e ∨ (2 * r = 2 ^ e ∧ q % 2 = 1) then q + 1 else q
  x.sign * (q' * 2 ^ e : Nat)

/-- The constructor and the archived parameters of `MinMaxScalerTransformer` over floating point numbers
of precision `p` (MinMaxScalerFeaturizer.h 189–250), for values that are integers: both operations are
rounded. -/
def floatMinMaxMake (p : Nat) (lo hi : Int) : Except Err (Int × Int) :=
  if lo > hi then .error .invalidArgument else .ok (lo, roundSig p (hi - lo))

/-- See `floatMinMaxMake`. -/
def floatMinMaxArchive (p : Nat) (t : Int × Int) : Int × Int := (t.1, roundSig p (t.1 + t.2))

/-- **C08** fails for double (and float) min-max scalers: there are a representable minimum and maximum
whose scaler, saved and loaded, is a different scaler (another span), because `min + (max - min)` rounds
away from the maximum. -/
theorem C08_float_min_max (p : Nat) (hp : p = 53 ∨ p = 24) :
    ∃ lo hi t t', roundSig p lo = lo ∧ roundSig p hi = hi ∧
      floatMinMaxMake p lo hi = .ok t ∧
      floatMinMaxMake p (floatMinMaxArchive p t).1 (floatMinMaxArchive p t).2 = .ok t' ∧ t' ≠ t := by
  rcases hp with rfl | rfl
  · exact ⟨(2 ^ 53 - 3) * 4, (2 ^ 53 - 1) * 8, ((2 ^ 53 - 3) * 4, 2 ^ 55),
      ((2 ^ 53 - 3) * 4, 2 ^ 55 - 4), by decide +kernel⟩
  · exact ⟨(2 ^ 24 - 3) * 4, (2 ^ 24 - 1) * 8, ((2 ^ 24 - 3) * 4, 2 ^ 26),
      ((2 ^ 24 - 3) * 4, 2 ^ 26 - 4), by decide +kernel⟩

end Feat
