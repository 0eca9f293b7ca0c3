import Verif.Model.CPipelines
import Verif.Model.FloatMinMaxArchive
/-
Min-max scaler, behind the C interface.
-/
namespace Feat.CApi
open FloatArith FloatScalers

/-- The min-max scaler of `float` or `double` behind the C interface, in a process with this byte order and address space: annotations
for one column, column 0, at most 2^64 - 1 training items (SharedLibrary_MinMaxScalerFeaturizer.cpp 3097–3119, 3388–3417 for `float`, and
likewise for `double`; MinMaxScalerFeaturizer.h 95–161, 189–295). -/
def minMaxIn (T : Type) [FloType T] [Scalar T] (X : Xf (MinMaxScaler T) T T) (host : Endian) (space : Nat) (place : List UInt8 → Nat) :=
  pipelineIn (σ := fun _ => T × T) (α := NumAnnot T F64) (O := F64) (floatMinMax T).ar X
    (Xf.ofFun fun (t : MinMaxScaler T) x => .ok (FloatScalers.execMinMax (floInput T) t x))
    (fun _ => FloatScalers.minMaxComponent (floInput T) 0 (2 ^ 64 - 1)) 1 (FloatScalers.makeMinMax (floInput T) 0) [[]] host space place

/-- Saving and loading a `MinMaxScalerTransformer` of integers (MinMaxScalerFeaturizer.h 189–250; `minMaxScaler`, Model/Transformers). -/
def integerMinMaxAr (T : Type) [CInt T] [Scalar T] : ArClass where
  Obj := MinMaxScaler T
  save t := (minMaxScaler T).save ⟨t.min, t.span⟩
  load := (minMaxScaler T).load >>= fun (s : SavedMinMaxScaler T) => pure (⟨s.min, s.span⟩ : MinMaxScaler T)

/-- The min-max scaler of an integer type, likewise (SharedLibrary_MinMaxScalerFeaturizer.cpp 41–63, 332–361 for `int8_t`, and likewise
for the other types). -/
def integerMinMaxIn (T : Type) [CInt T] [Scalar T] (X : Xf (MinMaxScaler T) T T) (host : Endian) (space : Nat) (place : List UInt8 → Nat) :=
  pipelineIn (σ := fun _ => T × T) (α := NumAnnot T F64) (O := F64) (integerMinMaxAr T) X
    (Xf.ofFun fun (t : MinMaxScaler T) x => .ok (FloatScalers.execMinMax (FloatScalers.intInput T) t x))
    (fun _ => FloatScalers.minMaxComponent (FloatScalers.intInput T) 0 (2 ^ 64 - 1)) 1 (FloatScalers.makeMinMax (FloatScalers.intInput T) 0) [[]] host space place

end Feat.CApi
