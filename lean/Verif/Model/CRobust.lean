import Verif.Model.CPipelines
import Verif.Model.FloatMedian
/-
Robust scaler, behind the C interface.
-/
namespace Feat.CApi
open FloatMedian

/-- Saving and loading a `RobustScalerTransformer` (RobustScalerFeaturizer.h 225–277; `robustScaler`, Model/Transformers). -/
def robustAr (T : Type) [Scalar T] : ArClass where
  Obj := FloRobust T
  save t := (robustScaler T).save (t.median, t.scale)
  load := (robustScaler T).load >>= fun (p : T × T) => pure (⟨p.1, p.2⟩ : FloRobust T)

/-- The robust scaler once `CreateEstimator` has checked its arguments: annotations for one column, column 0, at most 2^64 - 1
training items (SharedLibrary_RobustScalerFeaturizer.cpp 41–63, 332–361 for `int8_t`, and likewise for the other types;
RobustScalerFeaturizer.h 20–175, 225–297).  `k` is the input type; `T` is `float` for `float` and integers of 8 and 16 bits, else
`double`. -/
def robustPipeline {ι V S T : Type} [FloatArith.FloType T] [Scalar T] (k : RobustInput ι V S T) (centering : Bool) (qMin qMax : F32)
    (X : Xf (FloRobust T) ι ι) (host : Endian) (space : Nat) (place : List UInt8 → Nat) :=
  pipelineIn (robustAr T) X (Xf.ofFun fun t x => .ok (FloatMedian.execRobust k t x)) (FloatMedian.robustComponents k 0 (2 ^ 64 - 1)) 2
    (FloatMedian.makeRobust k centering qMin qMax 0) [[]] host space place

/-- The robust scaler behind the C interface, in a process with this byte order and address space.  The constructor checks the range
(RobustScalerFeaturizer.h 324–362). -/
def robustScalerIn {ι V S T : Type} [FloatArith.FloType T] [Scalar T] (k : RobustInput ι V S T) (centering : Bool) (qMin qMax : F32)
    (X : Xf (FloRobust T) ι ι) (host : Endian) (space : Nat) (place : List UInt8 → Nat) :=
  { robustPipeline k centering qMin qMax X host space place with
    new := match FloatMedian.checkRange qMin qMax with
      | .ok _ => (robustPipeline k centering qMin qMax X host space place).new
      | .error e => .error e }

end Feat.CApi
