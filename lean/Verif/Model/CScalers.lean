import Verif.Model.CPipelines
import Verif.Model.FloatScalers
import Verif.Model.Fills
import Verif.Model.FloatStats
/-
More featurizers that are pipelines, behind the C interface.
-/
namespace Feat.CApi
open FloatScalers

/-- The max-abs scaler behind the C interface, in a process with this byte order and address space: annotations for one column,
column 0, at most 2^64 - 1 training items (SharedLibrary_MaxAbsScalerFeaturizer.cpp 41–63, 332–361, and likewise for the other input
types; MaxAbsScalerFeaturizer.h 74–144, 183–230).  `k` is the input type; `T` is `float` for integers of 8 and 16 bits and `float`,
else `double`. -/
def maxAbsIn {V T : Type} [FloatArith.FloType T] [Scalar T] (k : AbsInput V T) (X : Xf T V V) (host : Endian) (space : Nat)
    (place : List UInt8 → Nat) :=
  pipelineIn (σ := fun _ => T) (α := NumAnnot V T) (maxAbsScaler T).ar X (Xf.ofFun fun (t : T) x => .ok (execMaxAbs k t x)) (fun _ => FloatScalers.maxAbsComponent k 0 (2 ^ 64 - 1)) 1
    (makeMaxAbs 0) [[]] host space place

/-- The categorical imputer behind the C interface, in a process with this byte order and address space: annotations for one column,
column 0, at most 2^64 - 1 training items (SharedLibrary_CatImputerFeaturizer.cpp 3169–3191, 3460–3489 for `float`, and likewise for
the other types; CatImputerFeaturizer.h 73–148, 188–234).  The mode imputer, whose sources repeat this (ModeImputerFeaturizer.h 26–139,
Components/ImputerTransformer.h 81–144), is the same one.  Here the values can be compared with `=`: all types but `float` and
`double`; a null is `none`. -/
def catImputerIn {K : Type} [DecidableEq K] [Traits K] [Fits K] (X : Xf K (Option K) (Option K)) (it : IterOrder (Option K) UInt32)
    (host : Endian) (space : Nat) (place : List UInt8 → Nat) :=
  pipelineIn (O := K) (imputer K).ar X (imputeXf id) (modeComponents it 0 (2 ^ 64 - 1)) 3 (makeModeImputer 0) [[]] host space place

/-- Saving and loading a `StandardScalerTransformer` (StandardScaleWrapperFeaturizer.h 215–260; `standardScaler`,
Model/Transformers). -/
def scalerAr : ArClass where
  Obj := StandardScaler F64
  save t := standardScaler.save (t.average, t.deviation)
  load := standardScaler.load >>= fun (p : F64 × F64) => pure (⟨p.1, p.2⟩ : StandardScaler F64)

/-- The standard scaler behind the C interface, in a process with this byte order and address space: annotations for one column,
column 0, at most 2^64 - 1 training items (SharedLibrary_StandardScaleWrapperFeaturizer.cpp 3097–3119, 3388–3417 for `float`, and likewise
for the other input types; StandardScaleWrapperFeaturizer.h 75–175, 215–293).  `k` is the input type. -/
def standardScalerIn {ι V S : Type} (k : FloatStats.StatInput ι V S) (withMean withStd : Bool) (X : Xf (StandardScaler F64) ι ι)
    (host : Endian) (space : Nat) (place : List UInt8 → Nat) :=
  pipelineIn scalerAr X (Xf.ofFun fun t x => .ok (FloatStats.execScaler k t x)) (FloatStats.scaleComponents k 0 (2 ^ 64 - 1)) 2
    (FloatStats.makeScaler withMean withStd 0) [[]] host space place

end Feat.CApi
