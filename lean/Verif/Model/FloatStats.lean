import Verif.Model.FloatNorms
/-
Model of Components/StatisticalMetricsEstimator.h, Components/StandardDeviationEstimator.h, MeanImputerFeaturizer.h and
StandardScaleWrapperFeaturizer.h with the floating point arithmetic of the code: sums of floating point columns are `long double`,
those of integer columns `int64_t`; averages and scaled values are `double`.  Assertions are compiled out.
-/
namespace Feat.FloatStats
open FloatText FloatArith FloatNorms
variable {ι V S α : Type}

/-! ### Statistics of a column -/

/-- `StandardStatsUpdater<T>::Result` (StatisticalMetricsEstimator.h 126–152). -/
structure FloStats (V S : Type) where
  min : V
  max : V
  count : Nat
  sum : S
  average : F64

/-- What the code does with a column whose inputs are `ι`, whose values are `V` and whose sum is an `S`. -/
structure StatInput (ι V S : Type) where
  /-- `IsNull` and `GetNullableValue`. -/
  get : ι → Option V
  lt : V → V → Bool
  /-- `static_cast<std::double_t>`, also in the comparison of the average with the minimum and the maximum (406–407). -/
  toD : V → F64
  zero : S
  /-- The sum part of `StandardStatsUpdater::update` (413–432). -/
  step : S → V → Except Err Unit × S
  /-- The check of the average (440–446). -/
  overflow : S → Nat → Bool
  /-- The average (447). -/
  average : S → Nat → F64

/-- `float` and `double` (StatisticalMetricsEstimator.h 413–424); NaN is null. -/
def floStat (T : Type) [FloType T] : StatInput T T F80 where
  get x := if isNaN x then none else some x
  lt := FloatArith.lt
  toD := FloatArith.cast
  zero := FloatArith.zero false
  step s x :=
    if eq (add s (FloatArith.cast x)) s && !eq x (FloatArith.zero false) then (.error .runtimeError, s)
    else if isInf (add s (FloatArith.cast x)) then (.error .runtimeError, add s (FloatArith.cast x))
    else (.ok (), add s (FloatArith.cast x))
  overflow s n := FloatArith.lt (FloatArith.cast (largest : F64)) (div s (ofInt n))
  average s n := FloatArith.cast (div s (ofInt n))

/-- Integer types (StatisticalMetricsEstimator.h 425–432, `intSumStep`), not nullable (`get := some`) or nullable
(`get := id`). -/
def intStat (V : Type) [CInt V] (get : ι → Option V) : StatInput ι V Int where
  get := get
  lt x y := decide (CInt.toInt x < CInt.toInt y)
  toD x := ofInt (CInt.toInt x)
  zero := 0
  step s x := match intSumStep s (CInt.toInt x) with
    | .error e => (.error e, s)
    | .ok t => (.ok (), t)
  overflow _ _ := false
  average s n := FloatArith.cast (div (ofInt s : F80) (ofInt n))

/-- The members of `StandardStatsUpdater`: `none` is `_first_element_flag`. -/
structure StatState (V S : Type) where
  range : Option (V × V)
  count : Nat
  sum : S

/-- `BasicStatsUpdater::update` (StatisticalMetricsEstimator.h 360–373). -/
def widen (k : StatInput ι V S) (r : Option (V × V)) (x : V) : V × V :=
  match r with
  | none => (x, x)
  | some (lo, hi) => (if k.lt x lo then x else lo, if k.lt hi x then x else hi)

/-- `StandardStatsUpdater::update` (StatisticalMetricsEstimator.h 360–379, 411–433). -/
def update (k : StatInput ι V S) (s : StatState V S) (x : V) : Except Err Unit × StatState V S :=
  if s.count = 2 ^ 64 - 1 then (.error .runtimeError, { s with range := some (widen k s.range x) })
  else match k.step s.sum x with
    | (r, t) => (r, ⟨some (widen k s.range x), s.count + 1, t⟩)

/-- `commit` (StatisticalMetricsEstimator.h 382–388, 436–454) with the checks of the constructors (351–357, 401–408). -/
def commit (k : StatInput ι V S) (s : StatState V S) : Except Err (FloStats V S) :=
  if s.count = 0 then .error .runtimeError
  else match s.range with
    | none => .error .ub
    | some (lo, hi) =>
      if k.lt hi lo then .error .invalidArgument
      else if k.overflow s.sum s.count then .error .runtimeError
      else if FloatArith.lt (k.toD hi) (k.average s.sum s.count) || FloatArith.lt (k.average s.sum s.count) (k.toD lo) then
        .error .invalidArgument
      else .ok ⟨lo, hi, s.count, s.sum, k.average s.sum s.count⟩

/-- The annotations. -/
inductive FloAnnot (V S : Type) where
  | stats (s : FloStats V S)
  | deviation (d : F80) (n : Nat)

/-- `dynamic_cast<StandardStatisticalAnnotationData<T> *>`. -/
def FloAnnot.isStats : FloAnnot V S → Bool | .stats _ => true | _ => false
/-- `dynamic_cast<StandardDeviationAnnotationData *>`. -/
def FloAnnot.isDeviation : FloAnnot V S → Bool | .deviation _ _ => true | _ => false

/-- `StatisticalMetricsTrainingOnlyPolicy` (StatisticalMetricsEstimator.h 462–493). -/
def statPolicy (k : StatInput ι V S) (wrap : FloStats V S → α) : Policy (StatState V S) ι α where
  begin _ s := (.ok true, s)
  fit x s := match k.get x with
    | none => (.ok (), s)
    | some v => update k s v
  complete _ s := ((commit k s).map wrap, s)

/-- `StatisticalMetricsEstimator`. -/
def statComponent (k : StatInput ι V S) (col cap : Nat) : Component (StatState V S) ι (FloAnnot V S) :=
  ⟨statPolicy k .stats, statsConfig col FloAnnot.isStats, cap, ⟨none, 0, k.zero⟩⟩

/-! ### Mean imputer -/

/-- `MeanImputerEstimatorImpl::create_transformer_impl` (MeanImputerFeaturizer.h 68–94).  The check that the minimum is null is
never true: without values the training throws. -/
def makeMean (col : Nat) (maps : AnnotationMaps (FloAnnot V S)) : Except Err F64 :=
  match getAnnotationData FloAnnot.isStats maps col "StatisticalMetricsEstimator" with
  | .error e => .error e
  | .ok (.stats s) => .ok s.average
  | .ok _ => .error .ub

/-- `ImputerTransformer<InputT, double>::execute_impl` (ImputerTransformer.h 135–144). -/
def execMean (k : StatInput ι V S) (mean : F64) (x : ι) : F64 :=
  match k.get x with
  | none => mean
  | some v => k.toD v

/-! ### Minimum and maximum imputer -/

/-- `MinMaxImputerEstimatorImpl::create_transformer_impl` (MinMaxImputerFeaturizer.h 69–93); it uses the same statistics, and so
throws when the sum does. -/
def makeExtreme (useMin : Bool) (col : Nat) (maps : AnnotationMaps (FloAnnot V S)) : Except Err V :=
  match getAnnotationData FloAnnot.isStats maps col "StatisticalMetricsEstimator" with
  | .error e => .error e
  | .ok (.stats s) => .ok (if useMin then s.min else s.max)
  | .ok _ => .error .ub

/-! ### Standard scaler -/

/-- The members of `StandardDeviationTrainingOnlyPolicy` (StandardDeviationEstimator.h 84–86); those of its
`L2NormUpdater<double>` are the `Acc`. -/
structure DevState where
  squares : Acc
  average : F64
  count : Nat

/-- The average of the annotation (StandardDeviationEstimator.h 206–218); see `devPolicy` of Model/Numeric. -/
def averageOf (m : List (String × List (FloAnnot V S))) : Except Err F64 :=
  match getAnnotationData FloAnnot.isStats [m] 0 "StatisticalMetricsEstimator" with
  | .error e => .error e
  | .ok (.stats s) => .ok s.average
  | .ok _ => .error .ub

/-- `fit_impl` (StandardDeviationEstimator.h 258–268): the difference is a `double`; `L2NormUpdater::update` ignores a null
(NormUpdaters.h 273–291), but the difference of numbers is not NaN. -/
def devFit (s : DevState) (x : F64) : Except Err Unit × DevState :=
  match updateAll (floNorm F64) l2 [sub x s.average] s.squares with
  | (.error e, a) => (.error e, { s with squares := a })
  | (.ok (), a) =>
    if s.count = 2 ^ 64 - 1 then (.error .runtimeError, { s with squares := a })
    else (.ok (), { s with squares := a, count := s.count + 1 })

/-- `complete_training` (StandardDeviationEstimator.h 226–237) with the checks of the annotation (160–170) and of
`L2NormUpdater::commit` (NormUpdaters.h 314–321). -/
def devCommit (s : DevState) : Except Err (F80 × Nat) :=
  if s.squares.valid = false then .error .runtimeError
  else if s.count = 0 then .error .runtimeError
  else
    let d := div (sqrt s.squares.acc) (sqrt (ofInt s.count))
    if FloatArith.lt d (zero false) then .error .invalidArgument else .ok (d, s.count)

/-- `StandardDeviationTrainingOnlyPolicy` (StandardDeviationEstimator.h 198–268). -/
def devPolicy (k : StatInput ι V S) : Policy DevState ι (FloAnnot V S) where
  begin m s := match averageOf m with
    | .error e => (.error e, s)
    | .ok a => (.ok true, { s with average := a })
  fit x s := match k.get x with
    | none => (.ok (), s)
    | some v => devFit s (k.toD v)
  complete _ s := ((devCommit s).map fun p => .deviation p.1 p.2, s)

/-- The components of `StandardScaleWrapperEstimator` (StandardScaleWrapperFeaturizer.h 165–175). -/
def scaleComponents (k : StatInput ι V S) (col cap : Nat) :
    (i : Nat) → Component (twoStates (StatState V S) DevState i) ι (FloAnnot V S) :=
  twoComponents (statComponent k col cap)
    ⟨devPolicy k, devConfig col FloAnnot.isDeviation, cap, ⟨Acc.start, zero false, 0⟩⟩

/-- `create_transformer_impl` (StandardScaleWrapperFeaturizer.h 124–154) and the constructor (216–223). -/
def makeScaler (withMean withStd : Bool) (col : Nat) (maps : AnnotationMaps (FloAnnot V S)) : Except Err (StandardScaler F64) :=
  let average : Except Err F64 :=
    if withMean then
      match getAnnotationData FloAnnot.isStats maps col "StatisticalMetricsEstimator" with
      | .error e => .error e
      | .ok (.stats s) => .ok s.average
      | .ok _ => .error .ub
    else .ok (zero false)
  match average with
  | .error e => .error e
  | .ok average =>
    let deviation : Except Err F64 :=
      if withStd then
        match getAnnotationData FloAnnot.isDeviation maps col "StandardDeviationEstimator" with
        | .error e => .error e
        | .ok (.deviation d _) => .ok (FloatArith.cast d)
        | .ok _ => .error .ub
      else .ok (ofInt 1)
    match deviation with
    | .error e => .error e
    | .ok d =>
      let d := if eq d (zero false) then ofInt 1 else d
      if FloatArith.lt d (zero false) then .error .invalidArgument else .ok ⟨average, d⟩

/-- `execute_impl` (StandardScaleWrapperFeaturizer.h 262–293) with the output type `double`. -/
def execScaler (k : StatInput ι V S) (t : StandardScaler F64) (x : ι) : F64 :=
  match k.get x with
  | none => nan
  | some v => div (sub (k.toD v) t.average) t.deviation

end Feat.FloatStats
