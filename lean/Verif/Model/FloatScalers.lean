import Verif.Model.FloatArith
import Verif.Model.Scalers
/-
Model of MinMaxScalerFeaturizer.h, MaxAbsScalerFeaturizer.h and of the estimators they use
(Components/MinMaxEstimator.h, Components/MaxAbsValueEstimator.h), with the floating point arithmetic of the code.  Inputs are
the values of the C++ input type; a NaN is null.
-/
namespace Feat.FloatScalers
open FloatText FloatArith
variable {V α : Type}

/-- What the code does with values of an input type: the null test, `<`, the comparison with 0, the subtraction in this type,
the conversions to `double` and the numeric limits. -/
structure FloInput (V : Type) where
  null : V → Bool
  lt : V → V → Bool
  isZero : V → Bool
  sub : V → V → Except Err V
  toD : V → F64
  lowest : V
  largest : V

/-- `float` and `double`. -/
def floInput (T : Type) [FloType T] : FloInput T where
  null := isNaN
  lt := FloatArith.lt
  isZero x := eq x (zero false)
  sub x y := .ok (FloatArith.sub x y)
  toD := FloatArith.cast
  lowest := FloatArith.lowest
  largest := FloatArith.largest

/-- The integer types: a difference is computed in the promoted type and converted back; overflow of `int32_t` and `int64_t` is
undefined. -/
def intInput (T : Type) [CInt T] : FloInput T where
  null _ := false
  lt x y := decide (CInt.toInt x < CInt.toInt y)
  isZero x := decide (CInt.toInt x = 0)
  sub x y := CInt.arith (CInt.toInt x - CInt.toInt y)
  toD x := ofInt (CInt.toInt x)
  lowest := CInt.ofInt (CInt.lo T)
  largest := CInt.ofInt (CInt.hi T)

/-! ### Min-max scaler -/

/-- `MinMaxTrainingOnlyPolicy` (MinMaxEstimator.h 131–152); the state is `(_min, _max)`; the check is that of
`MinMaxAnnotationData` (119–125). -/
def minMaxPolicy (k : FloInput V) (wrap : V → V → α) : Policy (V × V) V α where
  begin _ s := (.ok true, s)
  fit x s := (.ok (), (if k.lt x s.1 then x else s.1, if k.lt s.2 x then x else s.2))
  complete _ s := (if k.lt s.2 s.1 then .error .invalidArgument else .ok (wrap s.1 s.2), s)

/-- The constructor of `MinMaxScalerTransformer` (MinMaxScalerFeaturizer.h 188–198). -/
def newMinMax (k : FloInput V) (lo hi : V) : Except Err (MinMaxScaler V) :=
  if k.lt hi lo then .error .invalidArgument
  else match k.sub hi lo with
    | .error e => .error e
    | .ok d => .ok ⟨lo, d⟩

/-- `execute_impl` (MinMaxScalerFeaturizer.h 255–295); the output type is `double`. -/
def execMinMax (k : FloInput V) (t : MinMaxScaler V) (x : V) : F64 :=
  if k.null x then nan
  else if k.isZero t.span then zero false
  else div (FloatArith.sub (k.toD x) (k.toD t.min)) (k.toD t.span)

/-- `MinMaxScalerEstimatorImpl::create_transformer_impl` (MinMaxScalerFeaturizer.h 122–131). -/
def makeMinMax (k : FloInput V) (col : Nat) (maps : AnnotationMaps (NumAnnot V F64)) : Except Err (MinMaxScaler V) :=
  match getAnnotationData NumAnnot.isMinMax maps col "MinMaxEstimator" with
  | .error e => .error e
  | .ok (.minMax lo hi) => newMinMax k lo hi
  | .ok _ => .error .ub

/-- The component of `MinMaxScalerEstimator` (MinMaxScalerFeaturizer.h 148–153); a new policy starts with the numeric limits
reversed (MinMaxEstimator.h 131–136). -/
def minMaxComponent (k : FloInput V) (col cap : Nat) : Component (V × V) V (NumAnnot V F64) :=
  ⟨minMaxPolicy k .minMax, minMaxConfig col NumAnnot.isMinMax, cap, (k.largest, k.lowest)⟩

/-- What `save` archives for floating point inputs, read back (MinMaxScalerFeaturizer.h 200–250): the minimum and
`_min + _span`, given to the constructor. -/
def reloadMinMax (T : Type) [FloType T] (t : MinMaxScaler T) : Except Err (MinMaxScaler T) :=
  newMinMax (floInput T) t.min (add t.min t.span)

/-! ### Max-abs scaler -/

/-- What the max-abs scaler does with values of an input type: conversion to the output type `T`, and the absolute value in
the (promoted) input type, converted. -/
structure AbsInput (V T : Type) where
  toT : V → T
  abs : V → Except Err T

/-- `float` to `float` and `double` to `double`: `input < 0 ? -input : input`. -/
def floAbs (T : Type) [FloType T] : AbsInput T T where
  toT := FloatArith.cast
  abs x := .ok (FloatArith.cast (if FloatArith.lt x (zero false) then negate x else x))

/-- Integers; `intAbs` is the model of Model/Numeric.lean. -/
def intAbsInput (V T : Type) [CInt V] [FloType T] : AbsInput V T where
  toT x := ofInt (CInt.toInt x)
  abs x := (intAbs x).map ofInt

/-- `MaxAbsValueTrainingOnlyPolicy` (MaxAbsValueEstimator.h 134–160): `std::max(a, b)` is `a < b ? b : a`; the checks are those
of `MaxAbsValueAnnotationData` (112–127). -/
def maxAbsPolicy {T : Type} [FloType T] (k : AbsInput V T) (wrap : T → α) : Policy T V α where
  begin _ s := (.ok true, s)
  fit x s := match k.abs x with
    | .error e => (.error e, s)
    | .ok a => (.ok (), if FloatArith.lt s a then a else s)
  complete _ s :=
    (if FloatArith.lt s (zero false) then .error .invalidArgument
    else if FloatArith.lt largest s then .error .invalidArgument
    else .ok (wrap s), s)

/-- `MaxAbsScalerTransformer::execute_impl` (MaxAbsScalerFeaturizer.h 235–252). -/
def execMaxAbs {T : Type} [FloType T] (k : AbsInput V T) (scale : T) (x : V) : T :=
  if eq scale (zero false) then k.toT x else div (k.toT x) scale

/-- `MaxAbsScalerEstimatorImpl::create_transformer_impl` (MaxAbsScalerFeaturizer.h 114–126). -/
def makeMaxAbs {T : Type} (col : Nat) (maps : AnnotationMaps (NumAnnot V T)) : Except Err T :=
  match getAnnotationData NumAnnot.isMaxAbs maps col "MaxAbsValueEstimator" with
  | .error e => .error e
  | .ok (.maxAbs a) => .ok a
  | .ok _ => .error .ub

/-- The component of `MaxAbsScalerEstimator` (MaxAbsScalerFeaturizer.h 139–144). -/
def maxAbsComponent {T : Type} [FloType T] (k : AbsInput V T) (col cap : Nat) : Component T V (NumAnnot V T) :=
  ⟨maxAbsPolicy k .maxAbs, maxAbsConfig col NumAnnot.isMaxAbs, cap, zero false⟩

end Feat.FloatScalers
