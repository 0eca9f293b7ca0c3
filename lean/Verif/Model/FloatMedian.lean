import Verif.Model.FloatStats
/-
Model of Components/MedianEstimator.h, MedianImputerFeaturizer.h and RobustScalerFeaturizer.h with the floating point arithmetic of
the code.  The heaps hold the places of the numbers in their order (`key`), so that the two zeros, which are equal for the code, are
one: where the code has `-0`, the model may have `0`.  Assertions are compiled out.
-/
namespace Feat.FloatMedian
open FloatText FloatArith FloatStats
variable {ι V S T α : Type}

/-! ### Median -/

section
variable [FloType T]

/-- The number at a place in the order. -/
def ofKey (k : Int) : T := make (decide (k < 0)) k.natAbs

/-- `_get_interpolated_value` (MedianEstimator.h 246–261): the sum and its half are `double`. -/
def middle (a b : T) : T := FloatArith.cast (div (add (FloatArith.cast a : F64) (FloatArith.cast b)) (ofInt 2))

/-- `complete_training` (MedianEstimator.h 159–190) with `InterpolateValuesV`. -/
def medianOf (h : Heaps Int) : Except Err T :=
  if h.smaller.length + h.larger.length = 0 then .error .runtimeError
  else match h.smaller with
    | [] => .error .ub
    | t :: _ =>
      if (h.smaller.length + h.larger.length) % 2 = 1 then .ok (ofKey t)
      else .ok (middle (ofKey t) (match h.larger with | [] => zero false | g :: _ => ofKey g))

/-- `MedianTrainingOnlyPolicy` (MedianEstimator.h 153–243).  `get` is `IsNull`, `GetNullableValue` and
`static_cast<TransformedT>`. -/
def medianPolicy (get : ι → Option T) (wrap : T → α) : Policy (Heaps Int) ι α where
  begin _ s := (.ok true, s)
  fit x s := (.ok (), match get x with
    | none => s
    | some v => (s.push (key v)).rebalance)
  complete _ s :=
    match medianOf s with
    | .error e => (.error e, s)
    | .ok m => (.ok (wrap m), ⟨[], []⟩)

/-- The values of `float` and `double` columns, of which NaN is null. -/
def floGet {U : Type} [FloType U] (x : U) : Option T := if isNaN x then none else some (FloatArith.cast x)

/-- The values of integer columns, not nullable (`get := some`) or nullable (`get := id`). -/
def intGet [CInt V] (get : ι → Option V) (x : ι) : Option T := (get x).map fun v => ofInt (CInt.toInt v)

end

/-- The annotations of the robust scaler and of the median imputer. -/
inductive MedAnnot (V S T : Type) where
  | stats (s : FloStats V S)
  | median (m : T)

/-- `dynamic_cast<StandardStatisticalAnnotationData<InputT> *>`. -/
def MedAnnot.isStats : MedAnnot V S T → Bool | .stats _ => true | _ => false
/-- `dynamic_cast<MedianAnnotationData<TransformedT> *>`. -/
def MedAnnot.isMedian : MedAnnot V S T → Bool | .median _ => true | _ => false

/-- `MedianEstimator`. -/
def medianComponent [FloType T] (get : ι → Option T) (col cap : Nat) : Component (Heaps Int) ι (MedAnnot V S T) :=
  ⟨medianPolicy get .median, medianConfig col MedAnnot.isMedian, cap, ⟨[], []⟩⟩

/-! ### Median imputer -/

/-- `MedianImputerEstimatorImpl::create_transformer_impl` (MedianImputerFeaturizer.h 69–78). -/
def makeMedian (col : Nat) (maps : AnnotationMaps (MedAnnot V S T)) : Except Err T :=
  match getAnnotationData MedAnnot.isMedian maps col "MedianEstimator" with
  | .error e => .error e
  | .ok (.median m) => .ok m
  | .ok _ => .error .ub

/-- `ImputerTransformer<InputT, TransformedT>::execute_impl` (ImputerTransformer.h 135–144). -/
def execMedian (get : ι → Option T) (m : T) (x : ι) : T := (get x).getD m

/-- `MedianEstimator<nullable bool, bool, true>`, the median imputer of `bool` (MedianImputerFeaturizer.h 86–89: `bool` is an
integral type): `static_cast<bool>((static_cast<double>(a) + b) / 2)` is true unless both are false. -/
def boolPolicy (wrap : Bool → α) : Policy (Heaps Bool) (Option Bool) α := Feat.medianPolicy id true (fun a b => a || b) false wrap

/-! ### Robust scaler -/

/-- What the robust scaler does with inputs `ι` of values `V` when its results are of type `T`. -/
structure RobustInput (ι V S T : Type) where
  stat : StatInput ι V S
  /-- The values of the median. -/
  get : ι → Option T
  /-- `static_cast<TransformedT>((Max - Min) * qRangeRatio)` (RobustScalerFeaturizer.h 147). -/
  width : V → V → F32 → Except Err T
  /-- `static_cast<TransformedT>(input)` (288, 296). -/
  toT : ι → T

/-- `float` and `double` columns: the ratio becomes a `T`. -/
def floRobust (T : Type) [FloType T] : RobustInput T T F80 T where
  stat := floStat T
  get := floGet
  width hi lo ratio := .ok (FloatArith.cast (mul (sub hi lo) (FloatArith.cast ratio)))
  toT := FloatArith.cast

/-- Integer columns: `Max - Min` is computed in the promoted type (for `int8_t`, `int16_t`, `uint8_t`, `uint16_t` that is `int`,
where it always fits; `int32_t` and `int64_t` overflow is undefined) and becomes a `float` for the multiplication. -/
def intRobust (V : Type) [CInt V] (promotes : Bool) (T : Type) [FloType T] : RobustInput V V Int T where
  stat := intStat V some
  get := intGet some
  width hi lo ratio :=
    (if promotes then .ok (CInt.toInt hi - CInt.toInt lo)
      else (CInt.arith (T := V) (CInt.toInt hi - CInt.toInt lo)).map CInt.toInt).map fun d : Int =>
        FloatArith.cast (mul (ofInt d : F32) ratio)
  toT x := ofInt (CInt.toInt x)

/-- The checks of the constructor (RobustScalerFeaturizer.h 324–362). -/
def checkRange (qMin qMax : F32) : Except Err Unit :=
  if isNaN qMin = false ∧ (FloatArith.lt qMin (zero false) ∨ FloatArith.lt (ofInt 100) qMin) then .error .invalidArgument
  else if isNaN qMax = false ∧ (FloatArith.lt qMax (zero false) ∨ FloatArith.lt (ofInt 100) qMax) then .error .invalidArgument
  else if isNaN qMin = false ∨ isNaN qMax = false then
    if isNaN qMin ∨ isNaN qMax then .error .invalidArgument
    else if FloatArith.lt qMax qMin then .error .invalidArgument else .ok ()
  else .ok ()

/-- `qRangeRatio` (RobustScalerFeaturizer.h 136). -/
def rangeRatio (qMin qMax : F32) : F32 := div (sub qMax qMin) (ofInt 100)

/-- The components of `RobustScalerEstimator` (RobustScalerFeaturizer.h 165–175). -/
def robustComponents [FloType T] (k : RobustInput ι V S T) (col cap : Nat) :
    (i : Nat) → Component (twoStates (Heaps Int) (StatState V S) i) ι (MedAnnot V S T) :=
  twoComponents (medianComponent k.get col cap)
    ⟨statPolicy k.stat .stats, statsConfig col MedAnnot.isStats, cap, ⟨none, 0, k.stat.zero⟩⟩

/-- `RobustScalerTransformer`. -/
structure FloRobust (T : Type) where
  median : T
  scale : T

/-- `create_transformer_impl` (RobustScalerFeaturizer.h 116–155). -/
def makeRobust [FloType T] (k : RobustInput ι V S T) (centering : Bool) (qMin qMax : F32) (col : Nat)
    (maps : AnnotationMaps (MedAnnot V S T)) : Except Err (FloRobust T) :=
  match (if centering then makeMedian col maps else .ok (zero false)) with
  | .error e => .error e
  | .ok m =>
    if isNaN qMin then .ok ⟨m, ofInt 1⟩
    else match getAnnotationData MedAnnot.isStats maps col "StatisticalMetricsEstimator" with
      | .error e => .error e
      | .ok (.stats s) => (k.width s.max s.min (rangeRatio qMin qMax)).map fun w => ⟨m, w⟩
      | .ok _ => .error .ub

/-- `execute_impl` (RobustScalerFeaturizer.h 280–297). -/
def execRobust [FloType T] (k : RobustInput ι V S T) (t : FloRobust T) (x : ι) : T :=
  if eq t.scale (zero false) then sub (k.toT x) t.median else div (sub (k.toT x) t.median) t.scale

end Feat.FloatMedian
