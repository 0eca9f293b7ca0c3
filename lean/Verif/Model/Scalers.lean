import Verif.Model.Numeric
import Verif.Model.ComponentPipeline
/-
Model of MinMaxScalerFeaturizer.h, MaxAbsScalerFeaturizer.h, RobustScalerFeaturizer.h,
StandardScaleWrapperFeaturizer.h and Base/NormalizeFeaturizer.h (L1/L2/MaxNormalizeFeaturizer.h are
instances of it).

`F` is an ordered field in place of `float`/`double`/`long double` (exact arithmetic).
-/
namespace Feat
variable {V F T α : Type}

/-- A floating point result: a number, NaN (also the null value of `float` and `double`), or an infinity (what a
division of a non-zero number by zero yields). -/
inductive FVal (F : Type) where
  | num (x : F)
  | nan
  | infinite
  deriving DecidableEq, Repr

/-- The floating point division `a / b`. -/
def fdiv [Field F] [DecidableEq F] (a b : F) : FVal F :=
  if b = 0 then (if a = 0 then .nan else .infinite) else .num (a / b)

/-- The annotations of the numeric estimators (`MinMaxAnnotationData`, `StandardStatisticalAnnotationData`,
`MedianAnnotationData`, `MaxAbsValueAnnotationData`, `StandardDeviationAnnotationData`,
`VectorNormsAnnotationData`). -/
inductive NumAnnot (V F : Type) where
  | minMax (lo hi : V)
  | stats (s : Stats V F)
  | median (m : F)
  | maxAbs (a : F)
  | deviation (d : F) (n : Nat)
  | norms (l : List F)

/-- `dynamic_cast<MinMaxAnnotationData<T> *>`. -/
def NumAnnot.isMinMax : NumAnnot V F → Bool | .minMax _ _ => true | _ => false
/-- `dynamic_cast<StandardStatisticalAnnotationData<T> *>`. -/
def NumAnnot.isStats : NumAnnot V F → Bool | .stats _ => true | _ => false
/-- `dynamic_cast<MedianAnnotationData<T> *>`. -/
def NumAnnot.isMedian : NumAnnot V F → Bool | .median _ => true | _ => false
/-- `dynamic_cast<MaxAbsValueAnnotationData<T> *>`. -/
def NumAnnot.isMaxAbs : NumAnnot V F → Bool | .maxAbs _ => true | _ => false
/-- `dynamic_cast<StandardDeviationAnnotationData *>`. -/
def NumAnnot.isDeviation : NumAnnot V F → Bool | .deviation _ _ => true | _ => false
/-- `dynamic_cast<VectorNormsAnnotationData<UpdaterT> *>`. -/
def NumAnnot.isNorms : NumAnnot V F → Bool | .norms _ => true | _ => false

/-- A numeric input type: value, difference in that type, conversion to floating point, and numeric limits. -/
structure InputKind (V F : Type) where
  sub : V → V → Except Err V
  toF : V → F
  zero : V
  lowest : V
  largest : V

/-- A C++ integer type `T`; values are represented by the integers they denote. -/
def intInput (T : Type) [CInt T] [Field F] : InputKind Int F where
  sub a b := (CInt.arith (T := T) (a - b)).map CInt.toInt
  toF v := (v : F)
  zero := 0
  lowest := CInt.lo T
  largest := CInt.hi T

/-- Floating point inputs, exact; the limits only bound the inputs considered. -/
def exactInput [Field F] (lowest largest : F) : InputKind F F where
  sub a b := .ok (a - b)
  toF := id
  zero := 0
  lowest := lowest
  largest := largest

/-! ### Min-max scaler -/

/-- `MinMaxScalerTransformer` (MinMaxScalerFeaturizer.h 60–65). -/
structure MinMaxScaler (V : Type) where
  min : V
  span : V
  deriving DecidableEq, Repr

/-- The constructor (MinMaxScalerFeaturizer.h 188–198): the span is computed in, or converted back to, the input
type. -/
def MinMaxScaler.new [LinearOrder V] (k : InputKind V F) (lo hi : V) : Except Err (MinMaxScaler V) :=
  if lo > hi then .error .invalidArgument
  else match k.sub hi lo with
    | .error e => .error e
    | .ok d => .ok ⟨lo, d⟩

/-- `execute_impl` (MinMaxScalerFeaturizer.h 255–295); `none` is null/NaN. -/
def MinMaxScaler.exec [Field F] [DecidableEq F] [DecidableEq V] (k : InputKind V F) (t : MinMaxScaler V)
    (x : Option V) : FVal F :=
  match x with
  | none => .nan
  | some x => if t.span = k.zero then .num 0 else fdiv (k.toF x - k.toF t.min) (k.toF t.span)

/-- `MinMaxScalerEstimatorImpl::create_transformer_impl` (MinMaxScalerFeaturizer.h 122–131). -/
def makeMinMaxScaler [LinearOrder V] (k : InputKind V F) (col : Nat) (maps : AnnotationMaps (NumAnnot V F)) :
    Except Err (MinMaxScaler V) :=
  match getAnnotationData NumAnnot.isMinMax maps col "MinMaxEstimator" with
  | .error e => .error e
  | .ok (.minMax lo hi) => MinMaxScaler.new k lo hi
  | .ok _ => .error .ub

/-- The component of `MinMaxScalerEstimator` (MinMaxScalerFeaturizer.h 148–153). -/
def minMaxComponent [LinearOrder V] (k : InputKind V F) (val : T → V) (col cap : Nat) :
    Component (V × V) (Option T) (NumAnnot V F) :=
  ⟨minMaxPolicy val .minMax, minMaxConfig col NumAnnot.isMinMax, cap, minMaxNew k.lowest k.largest⟩

/-! ### Max-abs scaler -/

/-- `MaxAbsScalerTransformer::execute_impl` (MaxAbsScalerFeaturizer.h 235–252); the transformer is its scale. -/
def maxAbsScale [Field F] [DecidableEq F] (scale : F) (x : Option F) : FVal F :=
  match x with
  | none => .nan
  | some x => if scale ≠ 0 then fdiv x scale else .num x

/-- `MaxAbsScalerEstimatorImpl::create_transformer_impl` (MaxAbsScalerFeaturizer.h 114–126). -/
def makeMaxAbsScaler (col : Nat) (maps : AnnotationMaps (NumAnnot V F)) : Except Err F :=
  match getAnnotationData NumAnnot.isMaxAbs maps col "MaxAbsValueEstimator" with
  | .error e => .error e
  | .ok (.maxAbs a) => .ok a
  | .ok _ => .error .ub

/-- The component of `MaxAbsScalerEstimator` (MaxAbsScalerFeaturizer.h 139–144). -/
def maxAbsComponent [Field F] [LinearOrder F] (abs : T → Except Err F) (col cap : Nat) :
    Component F (Option T) (NumAnnot V F) :=
  ⟨maxAbsPolicy abs .maxAbs, maxAbsConfig col NumAnnot.isMaxAbs, cap, 0⟩

/-! ### Robust scaler -/

/-- The checks of `RobustScalerEstimatorImpl`'s constructor (RobustScalerFeaturizer.h 311–363): `none` is the null
value (NaN) of the limits of the quantile range. -/
def checkRange [Field F] [LinearOrder F] (qMin qMax : Option F) : Except Err (Option (F × F)) :=
  if (match qMin with | none => false | some q => decide (q < 0) || decide (q > 100)) then
    .error .invalidArgument
  else if (match qMax with | none => false | some q => decide (q < 0) || decide (q > 100)) then
    .error .invalidArgument
  else match qMin, qMax with
    | none, none => .ok none
    | some a, some b => if b < a then .error .invalidArgument else .ok (some (a, b))
    | _, _ => .error .invalidArgument

/-- `RobustScalerTransformer`. -/
structure RobustScaler (F : Type) where
  median : F
  scale : F
  deriving DecidableEq, Repr

/-- `RobustScalerTransformer::execute_impl` (RobustScalerFeaturizer.h 280–298). -/
def RobustScaler.exec [Field F] [DecidableEq F] (t : RobustScaler F) (x : Option F) : FVal F :=
  match x with
  | none => .nan
  | some x => if t.scale ≠ 0 then fdiv (x - t.median) t.scale else .num (x - t.median)

/-- The scale computed in `create_transformer_impl` (RobustScalerFeaturizer.h 133–151): `Max - Min` is computed in
the (promoted) input type: `widthSub`. -/
def robustScale [Field F] (widthSub : V → V → Except Err F) (range : Option (F × F)) (col : Nat)
    (maps : AnnotationMaps (NumAnnot V F)) : Except Err F :=
  match range with
  | none => .ok 1
  | some (a, b) =>
    match getAnnotationData NumAnnot.isStats maps col "StatisticalMetricsEstimator" with
    | .error e => .error e
    | .ok (.stats s) =>
      match widthSub s.max s.min with
      | .error e => .error e
      | .ok d => .ok (d * ((b - a) / 100))
    | .ok _ => .error .ub

/-- `RobustScalerEstimatorImpl::create_transformer_impl` (RobustScalerFeaturizer.h 116–155). -/
def makeRobustScaler [Field F] (widthSub : V → V → Except Err F) (centering : Bool) (range : Option (F × F))
    (col : Nat) (maps : AnnotationMaps (NumAnnot V F)) : Except Err (RobustScaler F) :=
  match (if centering then
      match getAnnotationData NumAnnot.isMedian maps col "MedianEstimator" with
      | .error e => .error e
      | .ok (.median m) => .ok m
      | .ok _ => .error .ub
    else .ok 0 : Except Err F) with
  | .error e => .error e
  | .ok median =>
    match robustScale widthSub range col maps with
    | .error e => .error e
    | .ok scale => .ok ⟨median, scale⟩

/-- `a - b` of integers of type `T` after promotion: exact for `int8_t`, `int16_t`, `uint8_t`, `uint16_t`; `int32_t` and
`int64_t` overflow is undefined; `uint32_t` and `uint64_t` wrap. -/
def promotedSub (T : Type) [CInt T] [Field F] (promotes : Bool) (a b : Int) : Except Err F :=
  if promotes then .ok ((a - b : Int) : F)
  else (CInt.arith (T := T) (a - b)).map fun d => ((CInt.toInt d : Int) : F)

/-- The components of `RobustScalerEstimator` (RobustScalerFeaturizer.h 170–178): the interpolating median and the
statistical metrics. -/
def robustComponents [Field F] [LinearOrder F] [LinearOrder V] (k : SumKind V F) (val : T → V)
    (col cap : Nat) : (i : Nat) → Component (twoStates (Heaps F) (StatsState V) i) (Option T) (NumAnnot V F) :=
  twoComponents
    ⟨medianPolicy (fun x => k.toF (val x)) true (fun a b => (a + b) / 2) 0 .median,
      medianConfig col NumAnnot.isMedian, cap, ⟨[], []⟩⟩
    ⟨statsPolicy k val .stats, statsConfig col NumAnnot.isStats, cap, StatsState.new k⟩

/-! ### Standard scaler -/

/-- `StandardScalerTransformer`. -/
structure StandardScaler (F : Type) where
  average : F
  deviation : F
  deriving DecidableEq, Repr

/-- The constructor (StandardScaleWrapperFeaturizer.h 216–223). -/
def StandardScaler.new [Field F] [LinearOrder F] (average deviation : F) : Except Err (StandardScaler F) :=
  if deviation < 0 then .error .invalidArgument else .ok ⟨average, deviation⟩

/-- `StandardScalerTransformer::execute_impl` (StandardScaleWrapperFeaturizer.h 262–293). -/
def StandardScaler.exec [Field F] [DecidableEq F] (t : StandardScaler F) (x : Option F) : FVal F :=
  match x with
  | none => .nan
  | some x => fdiv (x - t.average) t.deviation

/-- The average read by `StandardDeviationTrainingOnlyPolicy::begin_training` (StandardDeviationEstimator.h
198–214) from the column's annotations. -/
def averageOf (m : List (String × List (NumAnnot V F))) : Except Err F :=
  match getAnnotationData NumAnnot.isStats [m] 0 "StatisticalMetricsEstimator" with
  | .error e => .error e
  | .ok (.stats s) => .ok s.average
  | .ok _ => .error .ub

/-- `StandardScaleEstimatorImpl::create_transformer_impl` (StandardScaleWrapperFeaturizer.h 124–154). -/
def makeStandardScaler [Field F] [LinearOrder F] (withMean withStd : Bool) (col : Nat)
    (maps : AnnotationMaps (NumAnnot V F)) : Except Err (StandardScaler F) :=
  match (if withMean then
      match getAnnotationData NumAnnot.isStats maps col "StatisticalMetricsEstimator" with
      | .error e => .error e
      | .ok (.stats s) => .ok s.average
      | .ok _ => .error .ub
    else .ok 0 : Except Err F) with
  | .error e => .error e
  | .ok average =>
    match (if withStd then
        match getAnnotationData NumAnnot.isDeviation maps col "StandardDeviationEstimator" with
        | .error e => .error e
        | .ok (.deviation d _) => .ok d
        | .ok _ => .error .ub
      else .ok 1 : Except Err F) with
    | .error e => .error e
    | .ok deviation => StandardScaler.new average (if deviation = 0 then 1 else deviation)

/-- The components of `StandardScaleWrapperEstimator` (StandardScaleWrapperFeaturizer.h 165–175). -/
def standardComponents [Field F] [LinearOrder F] [LinearOrder V] (k : SumKind V F) (sqrt : F → F)
    (val : T → V) (col cap : Nat) :
    (i : Nat) → Component (twoStates (StatsState V) (DevState F) i) (Option T) (NumAnnot V F) :=
  twoComponents
    ⟨statsPolicy k val .stats, statsConfig col NumAnnot.isStats, cap, StatsState.new k⟩
    ⟨devPolicy sqrt (fun x => k.toF (val x)) averageOf .deviation, devConfig col NumAnnot.isDeviation, cap,
      ⟨0, false, 0, 0⟩⟩

/-! ### Normalizer -/

/-- `NormalizeTransformer` (Base/NormalizeFeaturizer.h 72–80): the norms and `_row`. -/
structure Normalizer (F : Type) where
  norms : List F
  row : Nat
  deriving DecidableEq, Repr

/-- The constructor (Base/NormalizeFeaturizer.h 230–242). -/
def Normalizer.new [Field F] [LinearOrder F] (norms : List F) : Except Err (Normalizer F) :=
  if norms = [] then .error .invalidArgument
  else if norms.any (· < 0) then .error .invalidArgument
  else .ok ⟨norms, 0⟩

/-- `execute_impl` (Base/NormalizeFeaturizer.h 293–318): one row.  The row number is a `size_t` that cannot pass
the number of norms. -/
def Normalizer.exec [Field F] [DecidableEq F] (toF : T → F) (t : Normalizer F) (row : List (Option T)) :
    Run (Normalizer F) (List (FVal F)) :=
  match t.norms[t.row]? with
  | none => ⟨[], some .runtimeError, t⟩
  | some n =>
    ⟨[row.map fun x => match x with
      | none => .nan
      | some x => fdiv (toF x) n], none, { t with row := t.row + 1 }⟩

/-- The transformer class. -/
def normalizeXf [Field F] [DecidableEq F] (toF : T → F) :
    Xf (Normalizer F) (List (Option T)) (List (FVal F)) where
  exec t row := t.exec toF row
  flush := noFlush

/-- `NormalizeEstimatorImpl::create_transformer_impl` (Base/NormalizeFeaturizer.h 162–172). -/
def makeNormalizer [Field F] [LinearOrder F] (col : Nat) (maps : AnnotationMaps (NumAnnot V F)) :
    Except Err (Normalizer F) :=
  match getAnnotationData NumAnnot.isNorms maps col "VectorNormsEstimator" with
  | .error e => .error e
  | .ok (.norms l) => Normalizer.new l
  | .ok _ => .error .ub

/-- The component of `NormalizeEstimatorBase` (Base/NormalizeFeaturizer.h 186–192). -/
def normsComponent [Field F] [LinearOrder F] (k : NormKind T F) (col cap : Nat) :
    Component (List F) (List (Option T)) (NumAnnot V F) :=
  ⟨normsPolicy k .norms, normsConfig col NumAnnot.isNorms, cap, []⟩

end Feat
