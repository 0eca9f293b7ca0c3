import Verif.Model.FloatScalers
/-
Model of Components/NormUpdaters.h, Components/VectorNormsEstimator.h and Base/NormalizeFeaturizer.h with the floating point
arithmetic of the code: norms are accumulated in `long double`, kept as `double`, and quotients are computed in `long double`.
Also the state that an exception leaves behind in the updater.
-/
namespace Feat.FloatNorms
open FloatText FloatArith
variable {V α : Type}

/-- `std::sqrt` of a number that is not negative, correctly rounded: the integer square root of the number in units of
`2^-(2 scale)`, with a half added if it is not exact. -/
def sqrt {T : Type} [FloType T] (x : T) : T :=
  if isNaN x then nan
  else if isInf x || decide (units x = 0) then x
  else
    let n := units x * 2 ^ (fmt T).scale
    let s := Nat.sqrt n
    roundTo false (if s * s = n then 2 * s else 2 * s + 1) (2 * 2 ^ (fmt T).scale)

/-- What the code does with the elements of a row: the null test and `static_cast<long double>`. -/
structure NormInput (V : Type) where
  null : V → Bool
  toL : V → F80

/-- `float` and `double`: NaN is null. -/
def floNorm (T : Type) [FloType T] : NormInput T := ⟨isNaN, FloatArith.cast⟩

/-- The integer types; every integer of 64 bits is a `long double`. -/
def intNorm (T : Type) [CInt T] : NormInput T := ⟨fun _ => false, fun x => ofInt (CInt.toInt x)⟩

/-- An updater: what `update_impl` does to the accumulated value (which it may change before it throws), and what `commit`
returns. -/
structure Updater where
  step : F80 → F80 → Except Err Unit × F80
  commit : F80 → F80

/-- The check and the addition of L1NormUpdater (NormUpdaters.h 239–250) and L2NormUpdater (301–312). -/
def accumulate (a d : F80) : Except Err Unit × F80 :=
  if eq (add a d) a && !eq d (zero false) then (.error .runtimeError, a)
  else if isInf (add a d) then (.error .runtimeError, add a d)
  else (.ok (), add a d)

/-- `L1NormUpdater` (NormUpdaters.h 231–260). -/
def l1 : Updater := ⟨fun a x => accumulate a (absolute x), id⟩

/-- `L2NormUpdater` (NormUpdaters.h 294–321); `powl` with the exponent 2 is the product. -/
def l2 : Updater := ⟨fun a x => accumulate a (mul (absolute x) (absolute x)), sqrt⟩

/-- `MaxNormUpdater` for floating point inputs (NormUpdaters.h 357–396): `std::max(abs(input), _max_norm)`. -/
def maxNorm : Updater := ⟨fun a x => (.ok (), if lt (absolute x) a then a else absolute x), id⟩

/-- An updater's state: the accumulated value and `_has_valid_input`. -/
structure Acc where
  acc : F80
  valid : Bool
  deriving DecidableEq

/-- `reset`. -/
def Acc.start : Acc := ⟨zero false, false⟩

/-- The loop of `fit` (VectorNormsEstimator.h 161–164) over the elements of a row. -/
def updateAll (k : NormInput V) (u : Updater) : List V → Acc → Except Err Unit × Acc
  | [], s => (.ok (), s)
  | x :: xs, s =>
    if k.null x then updateAll k u xs s
    else match u.step s.acc (k.toL x) with
      | (.error e, a) => (.error e, ⟨a, true⟩)
      | (.ok (), a) => updateAll k u xs ⟨a, true⟩

/-- `VectorNormsTrainingOnlyPolicy` (VectorNormsEstimator.h 147–175) with the check of the annotation (128–138); the state is
`_norms` and `_updater`. -/
def normsPolicy (k : NormInput V) (u : Updater) (wrap : List F64 → α) : Policy (List F64 × Acc) (List V) α where
  begin _ s := (.ok true, s)
  fit row s := match updateAll k u row s.2 with
    | (.error e, a) => (.error e, (s.1, a))
    | (.ok (), a) =>
      if a.valid then (.ok (), (s.1 ++ [FloatArith.cast (u.commit a.acc)], Acc.start))
      else (.error .runtimeError, (s.1, a))
  complete _ s :=
    (if s.1 = [] then .error .invalidArgument
    else if s.1.any (fun n => lt n (zero false)) then .error .invalidArgument
    else .ok (wrap s.1), ([], s.2))

/-- The loop of `fit` with `MaxNormUpdater` of an integer type (NormUpdaters.h 18–23, 357–396): the accumulated value is a
`uint64_t`; the absolute value is `intNormAbs`. -/
def intMaxAll [CInt V] : List V → Nat × Bool → Except Err Unit × (Nat × Bool)
  | [], s => (.ok (), s)
  | x :: xs, s =>
    match intNormAbs x with
    | .error e => (.error e, (s.1, true))
    | .ok a => intMaxAll xs (if a < s.1 then s.1 else a, true)

/-- `VectorNormsTrainingOnlyPolicy` (VectorNormsEstimator.h 147–175) of that updater: the `uint64_t` becomes a `double`. -/
def intMaxPolicy [CInt V] (wrap : List F64 → α) : Policy (List F64 × (Nat × Bool)) (List V) α where
  begin _ s := (.ok true, s)
  fit row s := match intMaxAll row s.2 with
    | (.error e, a) => (.error e, (s.1, a))
    | (.ok (), a) =>
      if a.2 then (.ok (), (s.1 ++ [ofInt a.1], (0, false)))
      else (.error .runtimeError, (s.1, a))
  complete _ s :=
    (if s.1 = [] then .error .invalidArgument
    else if s.1.any (fun n => lt n (zero false)) then .error .invalidArgument
    else .ok (wrap s.1), ([], s.2))

/-- The constructor of `NormalizeTransformer` (Base/NormalizeFeaturizer.h 230–242). -/
def newNormalizer (norms : List F64) : Except Err (Normalizer F64) :=
  if norms = [] then .error .invalidArgument
  else if norms.any (fun n => lt n (zero false)) then .error .invalidArgument
  else .ok ⟨norms, 0⟩

/-- One element (Base/NormalizeFeaturizer.h 308–313). -/
def quotient (k : NormInput V) (norm : F64) (x : V) : F64 :=
  if k.null x then nan else FloatArith.cast (div (k.toL x) (FloatArith.cast norm))

/-- `execute_impl` (Base/NormalizeFeaturizer.h 293–318). -/
def execNormalizer (k : NormInput V) (t : Normalizer F64) (row : List V) : Run (Normalizer F64) (List F64) :=
  match t.norms[t.row]? with
  | none => ⟨[], some .runtimeError, t⟩
  | some n => ⟨[row.map (quotient k n)], none, { t with row := t.row + 1 }⟩

/-- The transformer class. -/
def normalizeXf (k : NormInput V) : Xf (Normalizer F64) (List V) (List F64) where
  exec := execNormalizer k
  flush := noFlush

/-- `NormalizeEstimatorImpl::create_transformer_impl` (Base/NormalizeFeaturizer.h 162–172). -/
def makeNormalizer (col : Nat) (maps : AnnotationMaps (NumAnnot V F64)) : Except Err (Normalizer F64) :=
  match getAnnotationData NumAnnot.isNorms maps col "VectorNormsEstimator" with
  | .error e => .error e
  | .ok (.norms l) => newNormalizer l
  | .ok _ => .error .ub

/-- The component of `NormalizeEstimatorBase` (Base/NormalizeFeaturizer.h 186–192). -/
def normsComponent (k : NormInput V) (u : Updater) (col cap : Nat) : Component (List F64 × Acc) (List V) (NumAnnot V F64) :=
  ⟨normsPolicy k u .norms, normsConfig col NumAnnot.isNorms, cap, ([], Acc.start)⟩

/-- The same for the max norm of integers. -/
def intMaxComponent [CInt V] (col cap : Nat) : Component (List F64 × (Nat × Bool)) (List V) (NumAnnot V F64) :=
  ⟨intMaxPolicy .norms, normsConfig col NumAnnot.isNorms, cap, ([], (0, false))⟩

end Feat.FloatNorms
