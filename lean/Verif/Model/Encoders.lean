import Verif.Model.Categorical
import Verif.Model.ComponentPipeline
import Verif.Model.Structs
/-
Model of LabelEncoderFeaturizer.h, OneHotEncoderFeaturizer.h, NumericalizeFeaturizer.h.
-/
namespace Feat
variable {K : Type}

/-- A label encoder or one-hot encoder transformer: `Labels` and `AllowMissingValues`. -/
structure Encoder (K : Type) where
  labels : UMap K UInt32
  allowMissing : Bool

/-- `LabelEncoderTransformer::execute_impl` (LabelEncoderFeaturizer.h 62–75); the sum is a `uint32`. -/
def labelEncode [DecidableEq K] (t : Encoder K) (input : K) : Except Err UInt32 :=
  match t.labels.find? input with
  | none => if t.allowMissing then .ok 0 else .error .invalidArgument
  | some i => .ok (i + if t.allowMissing then 1 else 0)

/-- `OneHotEncoderTransformer::OneHotEncoderTransformer` (OneHotEncoderFeaturizer.h 213–225). -/
def newOneHot (labels : UMap K UInt32) (allow : Bool) : Except Err (Encoder K) :=
  if labels.size = 0 then .error .invalidArgument else .ok ⟨labels, allow⟩

/-- `OneHotEncoderTransformer::execute_impl` (OneHotEncoderFeaturizer.h 63–82); `size_t` is 64 bits. -/
def oneHotEncode [DecidableEq K] (t : Encoder K) (input : K) : Except Err (SingleValue UInt8) :=
  let offset : UInt64 := if t.allowMissing then 1 else 0
  match t.labels.find? input with
  | none =>
    if t.allowMissing = false then .error .invalidArgument
    else mkSingle (UInt64.ofNat t.labels.size + offset) 1 0
  | some i => mkSingle (UInt64.ofNat t.labels.size + offset) 1 (i.toUInt64 + offset)

/-- `NumericalizeTransformer::execute_impl` (NumericalizeFeaturizer.h 55–64): the index as a `double`, which
is exact for 32-bit indexes, or NaN (`none`). -/
def numericalizeOne [DecidableEq K] (labels : UMap K UInt32) (input : K) : Option UInt32 :=
  labels.find? input

/-- The private states of the components of an encoder: histogram and existing labels. -/
@[reducible] def encoderStates (K : Type) : Nat → Type
  | 0 => UMap K UInt32
  | 1 => UMap K UInt32
  | _ => Unit

/-- The training-only components of `LabelEncoderEstimator` (LabelEncoderFeaturizer.h 258–266),
`OneHotEncoderEstimator` (OneHotEncoderFeaturizer.h 275–283) and `NumericalizeEstimator`
(NumericalizeFeaturizer.h 244–252): a histogram and an index map on the same column, with the same cap. -/
def encoderComponents [LinearOrder K] (it : IterOrder K UInt32) (col cap : Nat)
    (existing : UMap K UInt32) : (i : Nat) → Component (encoderStates K i) K (CatAnnot K)
  | 0 => ⟨histogramPolicy, histogramConfig col, cap, UMap.empty⟩
  | 1 => ⟨indexMapPolicy it col, indexMapConfig col, cap, existing⟩
  | _ + 2 => ⟨⟨fun _ s => (.ok false, s), fun _ s => (.ok (), s), fun _ s => (.error .ub, s)⟩,
      ⟨col, "", true, fun _ => false⟩, cap, ()⟩

/-- The index map found by `get_annotation_data` in `create_transformer_impl`. -/
def trainedLabels (col : Nat) (maps : AnnotationMaps (CatAnnot K)) : Except Err (UMap K UInt32) :=
  match getAnnotationData CatAnnot.isIndexMap maps col "IndexMapEstimator" with
  | .error e => .error e
  | .ok (.indexMap m) => .ok m
  | .ok _ => .error .ub

/-- `LabelEncoderEstimatorImpl::create_transformer_impl` (LabelEncoderFeaturizer.h 133–142). -/
def makeLabelEncoder (col : Nat) (allow : Bool) (maps : AnnotationMaps (CatAnnot K)) :
    Except Err (Encoder K) :=
  match trainedLabels col maps with
  | .error e => .error e
  | .ok m => .ok ⟨m, allow⟩

/-- `OneHotEncoderEstimatorImpl::create_transformer_impl` (OneHotEncoderFeaturizer.h 141–150). -/
def makeOneHot (col : Nat) (allow : Bool) (maps : AnnotationMaps (CatAnnot K)) :
    Except Err (Encoder K) :=
  match trainedLabels col maps with
  | .error e => .error e
  | .ok m => newOneHot m allow

/-- `NumericalizeEstimatorImpl::create_transformer_impl` (NumericalizeFeaturizer.h 123–132). -/
def makeNumericalize (col : Nat) (maps : AnnotationMaps (CatAnnot K)) : Except Err (UMap K UInt32) :=
  trainedLabels col maps

end Feat
