import Verif.Model.TrainingOnly
import Verif.Model.CInt
import Verif.Model.Categorical
import Mathlib.Data.List.Sort
import Mathlib.Algebra.Order.Field.Basic
/-
Model of the numeric training-only estimators: Components/MedianEstimator.h,
StatisticalMetricsEstimator.h, MinMaxEstimator.h, MaxAbsValueEstimator.h, StandardDeviationEstimator.h,
NormUpdaters.h, VectorNormsEstimator.h, FrequencyEstimator.h and TimeSeriesFrequencyEstimator.h.

`F` is an ordered field: `float`, `double` and `long double` computations are exact (no rounding, no
infinities; NaN only as null).  An input is an `Option`: `none` is null (for a type without null: always
`some`).
-/
namespace Feat
variable {V F T α : Type}

/-! ### Median -/

/-- The two heaps of `MedianTrainingOnlyPolicy` (MedianEstimator.h 85–96).  A `std::priority_queue` is the list
of its elements, best first: `smaller` in decreasing order (`top` is the largest), `larger` in increasing
order. -/
structure Heaps (V : Type) where
  smaller : List V
  larger : List V
  deriving DecidableEq, Repr

/-- The first half of `fit_impl(U const &)` (MedianEstimator.h 212–227): where the value goes. -/
def Heaps.push [LinearOrder V] (h : Heaps V) (x : V) : Heaps V :=
  match h.smaller with
  | [] => { h with smaller := h.smaller.orderedInsert (· ≥ ·) x }
  | t :: _ =>
    if x ≤ t then { h with smaller := h.smaller.orderedInsert (· ≥ ·) x }
    else { h with larger := h.larger.orderedInsert (· ≤ ·) x }

/-- The second half (MedianEstimator.h 230–245): rebalancing.  `top`/`pop` of an empty queue is undefined
behaviour, which the conditions exclude. -/
def Heaps.rebalance [LinearOrder V] (h : Heaps V) : Heaps V :=
  if h.smaller.length ≥ h.larger.length + 2 then
    match h.smaller with
    | [] => h
    | t :: rest => ⟨rest, h.larger.orderedInsert (· ≤ ·) t⟩
  else if h.larger.length > h.smaller.length then
    match h.larger with
    | [] => h
    | t :: rest => ⟨h.smaller.orderedInsert (· ≥ ·) t, rest⟩
  else h

/-- `complete_training` (MedianEstimator.h 158–190) and `_get_interpolated_value` (250–268): `mean` is
`static_cast<TransformedT>((static_cast<double>(a) + b) / 2)`, `zero` its default for an empty heap. -/
def Heaps.median (h : Heaps V) (interpolate : Bool) (mean : V → V → V) (zero : V) : Except Err V :=
  let n := h.smaller.length + h.larger.length
  if n = 0 then .error .runtimeError
  else match h.smaller with
    | [] => .error .ub
    | t :: _ =>
      if interpolate = false ∨ n % 2 = 1 then .ok t
      else .ok (mean t (match h.larger with | [] => zero | g :: _ => g))

/-- `MedianTrainingOnlyPolicy` (MedianEstimator.h 153–245).  `cast` is `static_cast<TransformedT>`. -/
def medianPolicy [LinearOrder V] (cast : T → V) (interpolate : Bool) (mean : V → V → V) (zero : V)
    (wrap : V → α) : Policy (Heaps V) (Option T) α where
  begin _ s := (.ok true, s)
  fit x s := (.ok (), match x with
    | none => s
    | some x => (s.push (cast x)).rebalance)
  complete _ s :=
    match s.median interpolate mean zero with
    | .error e => (.error e, s)
    | .ok m => (.ok (wrap m), ⟨[], []⟩)

/-- `MedianEstimator` (name: MedianEstimator.h 16). -/
def medianConfig (col : Nat) (kind : α → Bool) : TrainingOnlyConfig α :=
  ⟨col, "MedianEstimator", true, kind⟩

/-! ### Statistical metrics -/

/-- `StandardStatsUpdater::Result` (StatisticalMetricsEstimator.h 126–152). -/
structure Stats (V F : Type) where
  min : V
  max : V
  count : Nat
  sum : V
  average : F
  deriving DecidableEq, Repr

/-- How a type of input values is summed: `sumStep` is the sum part of `StandardStatsUpdater::update`,
`toF` the conversion to `long double`. -/
structure SumKind (V F : Type) where
  zero : V
  sumStep : V → V → Except Err V
  toF : V → F

/-- Conversion of an integer value to `int64_t` (modular). -/
def wrap64 (v : Int) : Int := (v + 2 ^ 63) % 2 ^ 64 - 2 ^ 63

/-- The overflow check and addition for integer inputs (StatisticalMetricsEstimator.h 425–432).
`numeric_limits<int64_t>::max() - static_cast<int64_t>(input)` overflows, which is undefined behaviour, when
the converted input is negative (`uint64_t` inputs of 2⁶³ or more). -/
def intSumStep (sum v : Int) : Except Err Int :=
  let w := wrap64 v
  if v > 0 then
    if w < 0 then .error .ub
    else if 2 ^ 63 - 1 - w < sum then .error .runtimeError
    else .ok (sum + w)
  else if v < 0 then
    if -2 ^ 63 - w > sum then .error .runtimeError
    else .ok (sum + w)
  else .ok (sum + w)

/-- Integer inputs, by their mathematical value; the sum is an `int64_t`. -/
def intSum [Field F] : SumKind Int F := ⟨0, intSumStep, fun v => (v : F)⟩

/-- Floating point inputs in exact arithmetic (StatisticalMetricsEstimator.h 413–424): `sum + input == sum`
holds only for 0, and there are no infinities. -/
def exactSum [Field F] : SumKind F F := ⟨0, fun s v => .ok (s + v), id⟩

/-- The members of `BasicStatsUpdater` and `StandardStatsUpdater`: `none` is `_first_element_flag`. -/
structure StatsState (V : Type) where
  range : Option (V × V)
  count : Nat
  sum : V
  deriving DecidableEq, Repr

/-- A new updater (StatisticalMetricsEstimator.h 345–348, 396–398). -/
def StatsState.new (k : SumKind V F) : StatsState V := ⟨none, 0, k.zero⟩

/-- `BasicStatsUpdater::update` (StatisticalMetricsEstimator.h 360–379): minimum and maximum. -/
def widen [LinearOrder V] (r : Option (V × V)) (x : V) : V × V :=
  match r with
  | none => (x, x)
  | some (lo, hi) => (if x < lo then x else lo, if x > hi then x else hi)

/-- `StandardStatsUpdater::update` (StatisticalMetricsEstimator.h 411–433) after `BasicStatsUpdater::update`
(360–379). -/
def statsUpdate [LinearOrder V] (k : SumKind V F) (s : StatsState V) (x : V) :
    Except Err Unit × StatsState V :=
  let s := { s with range := some (widen s.range x) }
  if s.count = 2 ^ 64 - 1 then (.error .runtimeError, s)
  else
    let s := { s with count := s.count + 1 }
    match k.sumStep s.sum x with
    | .error e => (.error e, s)
    | .ok t => (.ok (), { s with sum := t })

/-- `commit` (StatisticalMetricsEstimator.h 382–388, 436–454) with the checks of the `Result` constructors
(351–357, 401–408). -/
def statsCommit [Field F] [LinearOrder V] [LinearOrder F] (k : SumKind V F) (s : StatsState V) :
    Except Err (Stats V F) :=
  if s.count = 0 then .error .runtimeError
  else match s.range with
    | none => .error .ub
    | some (lo, hi) =>
      if lo > hi then .error .invalidArgument
      else
        let average := k.toF s.sum / (s.count : F)
        if average > k.toF hi ∨ average < k.toF lo then .error .invalidArgument
        else .ok ⟨lo, hi, s.count, s.sum, average⟩

/-- `StatisticalMetricsTrainingOnlyPolicy` (StatisticalMetricsEstimator.h 462–493). -/
def statsPolicy [Field F] [LinearOrder F] [LinearOrder V] (k : SumKind V F) (val : T → V)
    (wrap : Stats V F → α) : Policy (StatsState V) (Option T) α where
  begin _ s := (.ok true, s)
  fit x s := match x with
    | none => (.ok (), s)
    | some x => statsUpdate k s (val x)
  complete _ s := ((statsCommit k s).map wrap, s)

/-- `StatisticalMetricsEstimator` (name: StatisticalMetricsEstimator.h 17). -/
def statsConfig (col : Nat) (kind : α → Bool) : TrainingOnlyConfig α :=
  ⟨col, "StatisticalMetricsEstimator", true, kind⟩

/-! ### Minimum and maximum -/

/-- `MinMaxTrainingOnlyPolicy` (MinMaxEstimator.h 119–151): the state is `(_min, _max)`.  Comparisons with NaN
(`none`) are false. -/
def minMaxPolicy [LinearOrder V] (val : T → V) (wrap : V → V → α) : Policy (V × V) (Option T) α where
  begin _ s := (.ok true, s)
  fit x s := (.ok (), match x with
    | none => s
    | some x => (if val x < s.1 then val x else s.1, if val x > s.2 then val x else s.2))
  complete _ s := (if s.1 > s.2 then .error .invalidArgument else .ok (wrap s.1 s.2), s)

/-- The state of a new `MinMaxTrainingOnlyPolicy` (MinMaxEstimator.h 130–137): it starts with the numeric limits
reversed. -/
def minMaxNew (lowest largest : V) : V × V := (largest, lowest)

/-- `MinMaxEstimator`. -/
def minMaxConfig (col : Nat) (kind : α → Bool) : TrainingOnlyConfig α :=
  ⟨col, "MinMaxEstimator", true, kind⟩

/-! ### Largest absolute value -/

/-- `input < 0 ? -input : input` (MaxAbsValueEstimator.h 152) for an integer type: small types are promoted,
for `int32_t`/`int64_t` negating the smallest value is undefined. -/
def intAbs [CInt T] (x : T) : Except Err Int :=
  if CInt.toInt x < 0 then
    if CInt.strict T ∧ -CInt.toInt x > CInt.hi T then .error .ub else .ok (-CInt.toInt x)
  else .ok (CInt.toInt x)

/-- `intAbs` converted to the floating point result type (the `static_cast` of MaxAbsValueEstimator.h 152). -/
def intAbsF [CInt T] [Field F] (x : T) : Except Err F :=
  match intAbs x with
  | .error e => .error e
  | .ok a => .ok (a : F)

/-- `MaxAbsValueTrainingOnlyPolicy` (MaxAbsValueEstimator.h 139–170) for inputs with the given absolute value
function; `std::max(_max, NaN)` is `_max`; the overflow check of the annotation (118–127) concerns infinities
only. -/
def maxAbsPolicy [Field F] [LinearOrder F] (abs : T → Except Err F) (wrap : F → α) :
    Policy F (Option T) α where
  begin _ s := (.ok true, s)
  fit x s := match x with
    | none => (.ok (), s)
    | some x =>
      match abs x with
      | .error e => (.error e, s)
      | .ok a => (.ok (), max s a)
  complete _ s := (if s < 0 then .error .invalidArgument else .ok (wrap s), s)

/-- `MaxAbsValueEstimator`. -/
def maxAbsConfig (col : Nat) (kind : α → Bool) : TrainingOnlyConfig α :=
  ⟨col, "MaxAbsValueEstimator", true, kind⟩

/-! ### Standard deviation -/

/-- The state of `StandardDeviationTrainingOnlyPolicy` (StandardDeviationEstimator.h 84–86): the sum of squares of
its `L2NormUpdater` (with `_has_valid_input`), `_average`, `_count`. -/
structure DevState (F : Type) where
  squares : F
  hasInput : Bool
  average : F
  count : Nat
  deriving DecidableEq, Repr

/-- `StandardDeviationTrainingOnlyPolicy` (StandardDeviationEstimator.h 198–268) with `L2NormUpdater`
(NormUpdaters.h 264–318); `averageOf` finds the average in the annotations
(`StatisticalMetricsEstimator::get_annotation_data`), `sqrt` is `std::sqrt`.  `begin_training` is not
given all columns in the C++ signature but reads them through `get_column_annotations`; the model's
`begin` sees the column itself, which is where the data is. -/
def devPolicy [Field F] [LinearOrder F] (sqrt : F → F) (toF : T → F)
    (averageOf : List (String × List α) → Except Err F) (wrap : F → Nat → α) :
    Policy (DevState F) (Option T) α where
  begin m s := match averageOf m with
    | .error e => (.error e, s)
    | .ok a => (.ok true, { s with average := a })
  fit x s := match x with
    | none => (.ok (), s)
    | some x =>
      let s := { s with hasInput := true, squares := s.squares + |toF x - s.average| ^ 2 }
      if s.count = 2 ^ 64 - 1 then (.error .runtimeError, s)
      else (.ok (), { s with count := s.count + 1 })
  complete _ s :=
    if s.hasInput = false then (.error .runtimeError, s)
    else if s.count = 0 then (.error .runtimeError, s)
    else
      let d := sqrt s.squares / sqrt (s.count : F)
      if d < 0 then (.error .invalidArgument, s)
      else (.ok (wrap d s.count), s)

/-- `StandardDeviationEstimator`. -/
def devConfig (col : Nat) (kind : α → Bool) : TrainingOnlyConfig α :=
  ⟨col, "StandardDeviationEstimator", true, kind⟩

/-! ### Norms of rows -/

/-- A norm updater (NormUpdaters.h): `update` of a non-null value, and what `commit` makes of the state; both
start from 0 after `reset`. -/
structure NormKind (T F : Type) where
  step : F → T → Except Err F
  commit : F → F

/-- `L1NormUpdater` in exact arithmetic (NormUpdaters.h 231–256). -/
def l1Norm [Field F] [LinearOrder F] (toF : T → F) : NormKind T F := ⟨fun s x => .ok (s + |toF x|), id⟩

/-- `L2NormUpdater` in exact arithmetic (NormUpdaters.h 294–318). -/
def l2Norm [Field F] [LinearOrder F] (sqrt : F → F) (toF : T → F) : NormKind T F :=
  ⟨fun s x => .ok (s + |toF x| ^ 2), sqrt⟩

/-- `MaxNormUpdater` for floating point inputs (NormUpdaters.h 357–394). -/
def maxNorm [Field F] [LinearOrder F] (toF : T → F) : NormKind T F := ⟨fun s x => .ok (max |toF x| s), id⟩

/-- `Details::abs` and the conversion to `uint64_t` in `MaxNormUpdater` for integer inputs
(NormUpdaters.h 360–382): the absolute value is converted back to the input type; of the smallest
`int32_t`/`int64_t` it is undefined. -/
def intNormAbs [CInt T] (x : T) : Except Err Nat :=
  if CInt.toInt x < 0 then
    if CInt.strict T ∧ -CInt.toInt x > CInt.hi T then .error .ub
    else .ok ((CInt.toInt (CInt.ofInt (T := T) (-CInt.toInt x))) % 2 ^ 64).toNat
  else .ok (CInt.toInt x).toNat

/-- `MaxNormUpdater` for integer inputs. -/
def intMaxNorm [CInt T] [Field F] [LinearOrder F] : NormKind T F :=
  ⟨fun s x => match intNormAbs x with
    | .error e => .error e
    | .ok a => .ok (max (a : F) s), id⟩

/-- The loop of `VectorNormsTrainingOnlyPolicy::fit` (VectorNormsEstimator.h 159–164): the updater's state is
the accumulated value and `_has_valid_input`. -/
def normLoop (k : NormKind T F) : List (Option T) → F × Bool → Except Err (F × Bool)
  | [], s => .ok s
  | none :: xs, s => normLoop k xs s
  | some x :: xs, s =>
    match k.step s.1 x with
    | .error e => .error e
    | .ok a => normLoop k xs (a, true)

/-- The norm of one row: `update` of all elements, then `commit`. -/
def rowNorm [Field F] (k : NormKind T F) (row : List (Option T)) : Except Err F :=
  match normLoop k row (0, false) with
  | .error e => .error e
  | .ok (_, false) => .error .runtimeError
  | .ok (a, true) => .ok (k.commit a)

/-- `VectorNormsTrainingOnlyPolicy` (VectorNormsEstimator.h 147–172) with the check of the annotation (128–138).
Simplification: if a row throws, the updater would keep that row's partial sum; here it is reset. -/
def normsPolicy [Field F] [LinearOrder F] (k : NormKind T F) (wrap : List F → α) :
    Policy (List F) (List (Option T)) α where
  begin _ s := (.ok true, s)
  fit row s := match rowNorm k row with
    | .error e => (.error e, s)
    | .ok a => (.ok (), s ++ [a])
  complete _ s :=
    (if s = [] then .error .invalidArgument
    else if s.any (· < 0) then .error .invalidArgument
    else .ok (wrap s), [])

/-- `VectorNormsEstimator`. -/
def normsConfig (col : Nat) (kind : α → Bool) : TrainingOnlyConfig α :=
  ⟨col, "VectorNormsEstimator", true, kind⟩

/-! ### Frequencies -/

/-- `std::chrono::system_clock::duration::max()` in ticks. -/
def durationMax : Int := 2 ^ 63 - 1

/-- `later - earlier` of two time points in ticks; a difference that does not fit is undefined. -/
def gap (earlier later : Int) : Except Err Int :=
  if later - earlier > durationMax then .error .ub else .ok (later - earlier)

/-- `FrequencyTrainingOnlyPolicy` (FrequencyEstimator.h 142–165): state `_frequency`, `_lastObserved`. -/
def frequencyPolicy (wrap : Int → α) : Policy (Int × Option Int) Int α where
  begin _ s := (.ok true, s)
  fit x s := match s.2 with
    | none => (.ok (), (s.1, some x))
    | some last =>
      if last ≥ x then (.error .runtimeError, s)
      else match gap last x with
        | .error e => (.error e, s)
        | .ok d => (.ok (), (if d ≤ s.1 then d else s.1, some x))
  complete _ s := (if s.1 = durationMax then .error .runtimeError else .ok (wrap s.1), s)

/-- `FrequencyEstimator`. -/
def frequencyConfig (col : Nat) (kind : α → Bool) : TrainingOnlyConfig α :=
  ⟨col, "FrequencyEstimator", true, kind⟩

/-- The members of `TimeSeriesFrequencyEstimator` (TimeSeriesFrequencyEstimator.h 76–84) and the shared
annotations.  The `std::map` from grain to time is a partial function. -/
structure TsFrequency (K α : Type) where
  maps : AnnotationMaps α
  tracker : K → Option Int
  minFrequency : Int

/-- A new estimator (TimeSeriesFrequencyEstimator.h 128–131). -/
def TsFrequency.new {K : Type} (maps : AnnotationMaps α) : Est (TsFrequency K α) :=
  Est.new ⟨maps, fun _ => none, durationMax⟩

/-- One iteration of the loop of `fit_impl` (TimeSeriesFrequencyEstimator.h 143–163): an item is a time and a
grain (the imputed columns are not read). -/
def TsFrequency.step {K : Type} [DecidableEq K] (row : Int × K) (s : TsFrequency K α) :
    Except Err Unit × TsFrequency K α :=
  match s.tracker row.2 with
  | none => (.ok (), { s with tracker := fun k => if k = row.2 then some row.1 else s.tracker k })
  | some last =>
    if last ≥ row.1 then (.error .runtimeError, s)
    else match gap last row.1 with
      | .error e => (.error e, s)
      | .ok d => (.ok (), { s with
          minFrequency := if d ≤ s.minFrequency then d else s.minFrequency
          tracker := fun k => if k = row.2 then some row.1 else s.tracker k })

/-- The loop of `fit_impl` (TimeSeriesFrequencyEstimator.h 143–163). -/
def TsFrequency.run {K : Type} [DecidableEq K] : List (Int × K) → TsFrequency K α →
    Except Err Unit × TsFrequency K α
  | [], s => (.ok (), s)
  | row :: rows, s =>
    match TsFrequency.step row s with
    | (.ok (), s') => TsFrequency.run rows s'
    | (.error e, s') => (.error e, s')

/-- The virtual functions (TimeSeriesFrequencyEstimator.h 136–170); `wrap` makes the annotation. -/
def tsFrequencyHooks {K : Type} [DecidableEq K] (wrap : Int → α) :
    Hooks (TsFrequency K α) (Int × K) Unit where
  begin s := (.ok true, s)
  fit rows s := match TsFrequency.run rows s with
    | (.ok (), s') => (.ok .continue, s')
    | (.error e, s') => (.error e, s')
  onDataCompleted s := (.ok true, s)
  complete s := match addAnnotation (some (wrap s.minFrequency)) 0 "TimeSeriesFrequencyEstimator" s.maps with
    | (r, m) => (r, { s with maps := m })
  create s := (.ok none, s)

end Feat
