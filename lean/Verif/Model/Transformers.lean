import Verif.Model.Types
import Verif.Model.Chrono
import Verif.Model.CInt
/-
Saving and loading of transformers, and the validation done by their constructors.

Every transformer follows the same scheme: `save` writes two 16-bit version numbers (1, 0) and then its
parameters one by one; the archive constructor reads the version, throws if it is not (1, 0), reads the
parameters in the same order and delegates to the ordinary constructor.  The parameters written one
after the other are a (right-nested) tuple, whose `Traits` do exactly that.
-/
namespace Feat

/-- A class of transformers: the parameters of its constructor, in the order in which they are
archived, the constructor itself (which may throw), and the parameters an object writes in `save`. -/
structure TClass : Type 1 where
  Params : Type
  [traits : Traits Params]
  [fits : Fits Params]
  Obj : Type
  versioned : Bool
  make : Params → Except Err Obj
  toArchive : Obj → Params

attribute [instance] TClass.traits TClass.fits

/-- The version part of `save` (e.g. OneHotEncoderFeaturizer.h 249–251). -/
def writeVersion : M Archive Unit := do
  Scalar.write (1 : UInt16)
  Scalar.write (0 : UInt16)

/-- The version part of an archive constructor (e.g. OneHotEncoderFeaturizer.h 231–236). -/
def readVersion : M Archive Unit := do
  let major ← Scalar.read UInt16
  let minor ← Scalar.read UInt16
  if major ≠ 1 ∨ minor ≠ 0 then M.throw .runtimeError else pure ()

/-- Raise the exception of a constructor. -/
def liftExcept {α : Type} : Except Err α → M Archive α
  | .ok a => pure a
  | .error e => M.throw e

/-- `save` of a transformer. -/
def TClass.save (c : TClass) (t : c.Obj) : M Archive Unit :=
  if c.versioned then writeVersion >>= fun _ => Traits.serialize (c.toArchive t)
  else Traits.serialize (c.toArchive t)

/-- The archive constructor of a transformer. -/
def TClass.load (c : TClass) : M Archive c.Obj :=
  if c.versioned then
    readVersion >>= fun _ => (Traits.deserialize : M Archive c.Params) >>= fun p => liftExcept (c.make p)
  else (Traits.deserialize : M Archive c.Params) >>= fun p => liftExcept (c.make p)

/-- `save`/`load` of nothing. -/
instance : Traits Unit where
  serialize _ := pure ()
  deserialize := pure ()

instance (priority := high) : Fits Unit := ⟨fun _ => True⟩

/-- A duration written in microseconds is preserved when it is a whole number of them. -/
instance {q : Nat} : Fits (Duration q) := ⟨fun d => (q : Int) ∣ d.ticks.toInt⟩

section
variable (K : Type) [DecidableEq K] [Traits K] [Fits K]

/-- `OneHotEncoderTransformer` (OneHotEncoderFeaturizer.h 213–256): labels and `AllowMissingValues`; an
empty map is rejected. -/
def oneHot : TClass where
  Params := UMap K UInt32 × Bool
  Obj := UMap K UInt32 × Bool
  versioned := true
  make p := if p.1.entries.length = 0 then .error .invalidArgument else .ok p
  toArchive t := t

/-- `LabelEncoderTransformer` (LabelEncoderFeaturizer.h 204–239). -/
def labelEncoder : TClass where
  Params := UMap K UInt32 × Bool
  Obj := UMap K UInt32 × Bool
  versioned := true
  make p := .ok p
  toArchive t := t

/-- `NumericalizeTransformer` (NumericalizeFeaturizer.h 194–226). -/
def numericalize : TClass where
  Params := UMap K UInt32
  Obj := UMap K UInt32
  versioned := true
  make p := .ok p
  toArchive t := t
end

/-- `HashOneHotVectorizerTransformer` (HashOneHotVectorizerFeaturizer.h 140–185): seed and number of
columns; zero columns are rejected. -/
def hashOneHot : TClass where
  Params := UInt32 × UInt32
  Obj := UInt32 × UInt32
  versioned := true
  make p := if p.2.toNat ≤ 0 then .error .runtimeError else .ok p
  toArchive t := t

/-- The members of a `MinMaxScalerTransformer`. -/
structure SavedMinMaxScaler (T : Type) where
  min : T
  span : T
  deriving DecidableEq, Repr

/-- `MinMaxScalerTransformer` over an integer type (MinMaxScalerFeaturizer.h 189–250): the constructor
takes minimum and maximum, keeps minimum and `max - min` (in the input type), and `save` writes the
minimum and `_min + _span`. -/
def minMaxScaler (T : Type) [CInt T] [Scalar T] : TClass where
  Params := T × T
  Obj := SavedMinMaxScaler T
  versioned := true
  make p :=
    if CInt.toInt p.1 > CInt.toInt p.2 then .error .invalidArgument
    else match CInt.arith (T := T) (CInt.toInt p.2 - CInt.toInt p.1) with
      | .ok span => .ok ⟨p.1, span⟩
      | .error e => .error e
  toArchive t := (t.min, CInt.ofInt (CInt.toInt t.min + CInt.toInt t.span))

/-- `SampleAddTransformer` (SampleAddFeaturizer.cpp 26–56): `Delta`. -/
def sampleAdd : TClass where
  Params := UInt32
  Obj := UInt32
  versioned := true
  make p := .ok p
  toArchive t := t

section
variable (T : Type) [Scalar T]

/-- `MaxAbsScalerTransformer` (MaxAbsScalerFeaturizer.h 183–230). -/
def maxAbsScaler : TClass where
  Params := T
  Obj := T
  versioned := true
  make p := .ok p
  toArchive t := t

/-- `RobustScalerTransformer` (RobustScalerFeaturizer.h 225–277): median and scale. -/
def robustScaler : TClass where
  Params := T × T
  Obj := T × T
  versioned := true
  make p := .ok p
  toArchive t := t
end

/-- `x < 0` for a double: the sign bit is set, and it is neither a zero nor a NaN. -/
def F64.isNegative (x : F64) : Bool :=
  0x8000000000000000 < x.bits.toNat && x.bits.toNat ≤ 0xFFF0000000000000

/-- `StandardScalerTransformer` (StandardScaleWrapperFeaturizer.h 215–239): average and deviation, no
version; a negative deviation is rejected. -/
def standardScaler : TClass where
  Params := F64 × F64
  Obj := F64 × F64
  versioned := false
  make p := if p.2.isNegative then .error .invalidArgument else .ok p
  toArchive t := t

/-- `NormalizeTransformer` (Base/NormalizeFeaturizer.h 230–271): the norms; the row counter starts at 0
and is not archived. -/
def normalizer : TClass where
  Params := List F64
  Obj := List F64 × Nat
  versioned := true
  make p :=
    if p = [] then .error .invalidArgument
    else if p.any F64.isNegative then .error .invalidArgument
    else .ok (p, 0)
  toArchive t := t.1

/-- `PCATransformer` (PCAFeaturizer.h 187–228) and `TruncatedSVDTransformer`
(TruncatedSVDFeaturizer.h 325–367): the matrix of vectors; an empty matrix is rejected. -/
def projection (T : Type) [Traits T] [Fits T] (colMajor : Bool) : TClass where
  Params := Mat T colMajor
  Obj := Mat T colMajor
  versioned := true
  make p := if p.inner * p.outer.length = 0 then .error .invalidArgument else .ok p
  toArchive t := t

/-- The members of a `LagLeadOperatorTransformer` that do not change; `bufferSize` is the capacity of its
circular buffer. -/
structure LagLeadParams where
  horizon : UInt32
  offsetDelta : UInt32
  offsets : List UInt32
  bufferSize : Nat
  deriving DecidableEq, Repr

/-- `*std::min_element`, `*std::max_element` of a non-empty vector. -/
def minElem (x : Int) : List Int → Int
  | [] => x
  | y :: ys => minElem (if y < x then y else x) ys

/-- See `minElem`. -/
def maxElem (x : Int) : List Int → Int
  | [] => x
  | y :: ys => maxElem (if x < y then y else x) ys

/-- `LagLeadOperatorTransformer` (LagLeadOperatorFeaturizer.h 214–320): horizon and signed offsets; the
offsets are kept relative to the most negative one, and converted back in `save`.  `fits` (used by the
theorems only): offsets beyond 2^31 do not survive the conversion to 32 bits. -/
def lagLead : TClass where
  Params := UInt32 × List Int64
  fits := ⟨fun p => p.2.length < 2 ^ 32 ∧ ∀ δ ∈ p.2, -2 ^ 31 ≤ δ.toInt ∧ δ.toInt < 2 ^ 31⟩
  Obj := LagLeadParams
  versioned := true
  make p :=
    if p.1.toNat = 0 then .error .invalidArgument
    else match p.2.map Int64.toInt with
      | [] => .error .invalidArgument
      | d :: ds =>
        let mn := minElem d ds
        let mx := maxElem d ds
        if mn = -2 ^ 63 then .error .ub
        else
          let od : UInt32 := CInt.ofInt (-(if mn < 0 then mn else 0))
          let size : Int := if mx < 0 then -mn else if mn ≥ 0 then mx else mx - mn
          .ok { horizon := p.1
                offsetDelta := od
                offsets := (d :: ds).map fun δ => CInt.ofInt (δ + od.toNat)
                bufferSize := p.1.toNat + size.toNat }
  toArchive t := (t.horizon, t.offsets.map fun o => Int64.ofInt ((o.toNat : Int) - t.offsetDelta.toNat))

/-- The members of a rolling window transformer; the last one is the capacity of the circular buffer, a
32-bit sum. -/
structure RollingParams where
  calculation : UInt8
  horizon : UInt32
  maxWindow : UInt32
  minWindow : UInt32
  capacity : UInt32
  deriving DecidableEq, Repr

/-- `AnalyticalRollingWindowTransformer` (AnalyticalRollingWindowFeaturizer.h 192–248) and
`SimpleRollingWindowTransformer` (SimpleRollingWindowFeaturizer.h 195–259), on
`RollingWindowTransformerBase` (Base/RollingWindowTransformerBase.h 140–176) and `CircularBuffer`
(Components/WindowFeaturizerBase.h 309–316). -/
def rollingWindow : TClass where
  Params := UInt8 × UInt32 × UInt32 × UInt32
  Obj := RollingParams
  versioned := true
  make p :=
    let horizon := p.2.1
    let maxW := p.2.2.1
    let minW := p.2.2.2
    if horizon.toNat < 1 then .error .invalidArgument
    else if maxW.toNat < 1 then .error .invalidArgument
    else if minW.toNat < 1 then .error .invalidArgument
    else if minW.toNat > maxW.toNat then .error .invalidArgument
    else if (horizon + maxW).toNat = 0 then .error .invalidArgument
    else .ok ⟨p.1, horizon, maxW, minW, horizon + maxW⟩
  toArchive t := (t.calculation, t.horizon, t.maxWindow, t.minWindow)

/-- `ForwardFillImputerTransformer` (ForwardFillImputerFeaturizer.h 155–229): the optional default value;
without one, no last value is known. -/
def forwardFill (T : Type) [Traits T] [Fits T] : TClass where
  Params := Option T
  Obj := Option T × Option T
  versioned := true
  make p := .ok (p, p)
  toArchive t := t.1

/-- `BackwardFillImputerTransformer` (BackwardFillImputerFeaturizer.h 172–230): the optional default value
and the number of pending rows. -/
def backwardFill (T : Type) [Traits T] [Fits T] : TClass where
  Params := Option T
  Obj := Option T × Nat
  versioned := true
  make p := .ok (p, 0)
  toArchive t := t.1

/-- `ImputerTransformer` (Components/ImputerTransformer.h 81–130), `CatImputerTransformer`
(CatImputerFeaturizer.h 188–219), `SampleAddTransformer` (SampleAddFeaturizer.cpp 27–56): one value. -/
def imputer (T : Type) [Traits T] [Fits T] : TClass where
  Params := T
  Obj := T
  versioned := true
  make p := .ok p
  toArchive t := t

/-- `ShortGrainDropperTransformer` (ShortGrainDropperFeaturizer.cpp 17–51): the grains to keep. -/
def shortGrainDropper : TClass where
  Params := USet (List Str)
  Obj := USet (List Str)
  versioned := true
  make p := .ok p
  toArchive t := t

/-- `StringTransformer` (StringFeaturizer.h 141–190) and `FromStringTransformer`
(FromStringFeaturizer.h 141–190) for a type that is or is not nullable. -/
def stringConversion (nullable : Bool) : TClass where
  Params := Bool
  Obj := Bool
  versioned := true
  make p := if p && nullable == false then .error .invalidArgument else .ok p
  toArchive t := t

/-- `InferenceOnlyTransformerImpl` (Components/InferenceOnlyFeaturizerImpl.h 122–141): a version only. -/
def inferenceOnly : TClass where
  Params := Unit
  Obj := Unit
  versioned := true
  make p := .ok p
  toArchive t := t

/-- The members of a `TfidfVectorizerTransformer` (TfidfVectorizerFeaturizer.cpp 19–113): labels, document
frequencies, number of documents, norm, policy, lower case, analyzer, regular expression, smallest and
largest n-gram.  Enumerations are their underlying numbers, which are not validated. -/
abbrev TfidfParams :=
  UMap Str UInt32 × UMap Str UInt32 × UInt32 × UInt8 × UInt32 × Bool × UInt8 × Str × UInt32 × UInt32

/-- `TfidfVectorizerTransformer` (TfidfVectorizerFeaturizer.cpp 19–113) and `CountVectorizerTransformer`
(CountVectorizerFeaturizer.cpp 17–38), which saves and loads the tf-idf transformer it wraps. -/
def tfidf : TClass where
  Params := TfidfParams
  Obj := TfidfParams
  versioned := true
  make p :=
    if p.1.entries.length = 0 then .error .invalidArgument
    else if p.2.1.entries.length = 0 then .error .invalidArgument
    else .ok p
  toArchive t := t

/-- `IsValid(TypeId)` (Traits.h 134–160) on the underlying number (`LastStaticValue` is 19). -/
def validTypeId (id : UInt32) : Bool :=
  (1 ≤ id.toNat && id.toNat ≤ 18) ||
  (0x10010014 ≤ id.toNat && id.toNat ≤ 0x10010018) || id.toNat == 0x10020019

/-- `TimeSeriesImputerEstimator::Transformer` (Components/TimeSeriesImputerTransformer.h 254–361): frequency,
column types, strategy, medians by grain key, suppress-errors flag.  Simplified: the archive constructor
validates each column type and the strategy (1 to 4) as it reads them, here all validation comes after the
reads; the types an object holds are enumerators, so the check is put into the constructor. -/
def timeSeriesImputer (q : Nat) : TClass where
  Params := Duration q × List UInt32 × UInt8 × OMap (List Str) (List F64) × Bool
  Obj := Duration q × List UInt32 × UInt8 × OMap (List Str) (List F64) × Bool
  versioned := true
  make p :=
    if p.2.1.any (fun i => !validTypeId i) then .error .runtimeError
    else if ¬ (1 ≤ p.2.2.1.toNat ∧ p.2.2.1.toNat ≤ 4) then .error .runtimeError
    else if p.2.1.length = 0 then .error .runtimeError
    else if p.1.ticks.toInt = 2 ^ 63 - 1 then .error .runtimeError
    else .ok p
  toArchive t := t

/-- `DateTimeTransformer` (DateTimeFeaturizer.cpp 317–398): the country name; the constructor looks up the
country's holidays in the data directory (`lookup`, which throws if there is no match). -/
def dateTime (lookup : Str → Except Err (List (Int × Str))) : TClass where
  Params := Str
  Obj := Str × List (Int × Str)
  versioned := true
  make p :=
    if p.chars = [] then .ok (p, [])
    else match lookup p with
      | .ok h => .ok (p, h)
      | .error e => .error e
  toArchive t := t.1

end Feat
