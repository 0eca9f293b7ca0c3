import Verif.Model.Categorical
import Verif.Model.Scalers
/-
Imputers: forward fill, backward fill, value imputers, and the null indicators.

A null input (an empty optional, or NaN for floating point types) is `none`.
-/
namespace Feat

variable {A V F T K : Type}

/-! ### Forward fill (ForwardFillImputerFeaturizer.h) -/

/-- `ForwardFillImputerTransformer` (ForwardFillImputerFeaturizer.h 76–79): the default value, and the last
value with its validity flag (`none`: `_validLastValue` is false). -/
structure ForwardFill (A : Type) where
  default : Option A
  last : Option A
  deriving DecidableEq, Repr

/-- The constructors (ForwardFillImputerFeaturizer.h 155–163; the default one leaves `_validLastValue` false, 79). -/
def ForwardFill.new (default : Option A) : ForwardFill A := ⟨default, default⟩

/-- `execute_impl` (ForwardFillImputerFeaturizer.h 88–115). -/
def ForwardFill.exec (t : ForwardFill A) (input : Option A) : Run (ForwardFill A) A :=
  match input with
  | none =>
    match t.last with
    | none => ⟨[], some .runtimeError, t⟩
    | some v => ⟨[v], none, t⟩
  | some v => ⟨[v], none, { t with last := some v }⟩

/-- The transformer; no `flush_impl` of its own. -/
def forwardFillXf : Xf (ForwardFill A) (Option A) A := ⟨ForwardFill.exec, noFlush⟩

/-! ### Backward fill (BackwardFillImputerFeaturizer.h) -/

/-- `BackwardFillImputerTransformer` (BackwardFillImputerFeaturizer.h 74–76): the default value and the 32-bit
`_numPending`, here a number below 2^32. -/
structure BackwardFill (A : Type) where
  default : Option A
  pending : Nat
  deriving DecidableEq, Repr

/-- The constructors (BackwardFillImputerFeaturizer.h 171–180). -/
def BackwardFill.new (default : Option A) : BackwardFill A := ⟨default, 0⟩

/-- `execute_impl` (BackwardFillImputerFeaturizer.h 85–101): 32-bit unsigned arithmetic wraps around. -/
def BackwardFill.exec (t : BackwardFill A) (input : Option A) : Run (BackwardFill A) A :=
  match input with
  | none => ⟨[], none, { t with pending := (t.pending + 1) % 2 ^ 32 }⟩
  | some v => ⟨List.replicate ((t.pending + 1) % 2 ^ 32) v, none, { t with pending := 0 }⟩

/-- `flush_impl` (BackwardFillImputerFeaturizer.h 103–128). -/
def BackwardFill.flush (t : BackwardFill A) : Run (BackwardFill A) A :=
  if t.pending ≠ 0 then
    match t.default with
    | none => ⟨[], some .runtimeError, t⟩
    | some d => ⟨List.replicate t.pending d, none, { t with pending := 0 }⟩
  else ⟨[], none, t⟩

/-- The transformer. -/
def backwardFillXf : Xf (BackwardFill A) (Option A) A := ⟨BackwardFill.exec, BackwardFill.flush⟩

/-! ### Value imputers -/

/-- `ImputerTransformer::execute_impl` (Components/ImputerTransformer.h 135–144) and
`CatImputerTransformer::execute_impl` (CatImputerFeaturizer.h 225–234); the transformer is its value, `cast` the
conversion to the output type. -/
def imputeXf (cast : A → V) : Xf V (Option A) V :=
  Xf.ofFun fun value input => .ok (match input with | none => value | some a => cast a)

/-- `MissingDummiesTransformer::execute_impl` (MissingDummiesFeaturizer.h 63–65): an `int8_t`. -/
def missingDummiesXf : Xf Unit (Option A) Int :=
  Xf.ofFun fun _ input => .ok (if input.isNone then 1 else 0)

/-- `ImputationMarkerTransformer::execute_impl` (ImputationMarkerFeaturizer.h 48–51). -/
def imputationMarkerXf : Xf Unit (Option A) Bool := Xf.ofFun fun _ input => .ok input.isNone

/-- `MeanImputerEstimatorImpl::create_transformer_impl` (MeanImputerFeaturizer.h 68–94).  The check that the
recorded minimum is not null is void: the statistics never hold a null. -/
def makeMeanImputer (col : Nat) (maps : AnnotationMaps (NumAnnot V F)) : Except Err F :=
  match getAnnotationData NumAnnot.isStats maps col "StatisticalMetricsEstimator" with
  | .error e => .error e
  | .ok (.stats s) => .ok s.average
  | .ok _ => .error .ub

/-- `MinMaxImputerEstimatorImpl::create_transformer_impl` (MinMaxImputerFeaturizer.h 69–93). -/
def makeMinMaxImputer (useMin : Bool) (col : Nat) (maps : AnnotationMaps (NumAnnot V F)) : Except Err V :=
  match getAnnotationData NumAnnot.isStats maps col "StatisticalMetricsEstimator" with
  | .error e => .error e
  | .ok (.stats s) => .ok (if useMin then s.min else s.max)
  | .ok _ => .error .ub

/-- `MedianImputerEstimatorImpl::create_transformer_impl` (MedianImputerFeaturizer.h 69–78). -/
def makeMedianImputer (col : Nat) (maps : AnnotationMaps (NumAnnot V F)) : Except Err F :=
  match getAnnotationData NumAnnot.isMedian maps col "MedianEstimator" with
  | .error e => .error e
  | .ok (.median m) => .ok m
  | .ok _ => .error .ub

/-- `ModeImputerEstimatorImpl::create_transformer_impl` (ModeImputerFeaturizer.h 70–93) and
`CatImputerEstimatorImpl::create_transformer_impl` (CatImputerFeaturizer.h 117–129, where a null mode is a violated
precondition of `GetNullableValue`; the mode never is null). -/
def makeModeImputer (col : Nat) (maps : AnnotationMaps (CatAnnot (Option K))) : Except Err K :=
  match getAnnotationData CatAnnot.isMode maps col "ModeEstimator" with
  | .error e => .error e
  | .ok (.mode none) => .error .runtimeError
  | .ok (.mode (some k)) => .ok k
  | .ok _ => .error .ub

/-- The component of `MeanImputerEstimator` (MeanImputerFeaturizer.h 108–113) and `MinMaxImputerEstimator`
(MinMaxImputerFeaturizer.h 107–112). -/
def statsComponent [Field F] [LinearOrder F] [LinearOrder V] (k : SumKind V F) (val : T → V) (col cap : Nat) :
    Component (StatsState V) (Option T) (NumAnnot V F) :=
  ⟨statsPolicy k val .stats, statsConfig col NumAnnot.isStats, cap, .new k⟩

/-- The component of `MedianImputerEstimator` (MedianImputerFeaturizer.h 104–109). -/
def medianComponent [LinearOrder F] (cast : T → F) (interpolate : Bool) (mean : F → F → F) (zero : F)
    (col cap : Nat) : Component (Heaps F) (Option T) (NumAnnot V F) :=
  ⟨medianPolicy cast interpolate mean zero .median, medianConfig col NumAnnot.isMedian, cap, ⟨[], []⟩⟩

/-- The three components of `ModeImputerEstimator` (ModeImputerFeaturizer.h 107–114) and `CatImputerEstimator`
(CatImputerFeaturizer.h 143–148): histogram, order and mode without nulls. -/
def modeComponents [DecidableEq K] (it : IterOrder (Option K) UInt32) (col cap : Nat) :
    (i : Nat) → Component (threeStates (UMap (Option K) UInt32) (UMap (Option K) UInt32) Unit i) (Option K)
      (CatAnnot (Option K)) :=
  threeComponents ⟨histogramPolicy, histogramConfig col, cap, UMap.empty⟩
    ⟨orderPolicy, orderConfig col, cap, UMap.empty⟩
    ⟨modePolicy it Option.isSome col, modeConfig col, cap, ()⟩

end Feat
