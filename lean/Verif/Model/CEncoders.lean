import Verif.Model.CPipelines
import Verif.Model.FloatArith
/-
One-hot encoder and numericalize, behind the C interface.
-/
namespace Feat.CApi

/-- Saving and loading a `OneHotEncoderTransformer` (OneHotEncoderFeaturizer.h 213–257; `oneHot`, Model/Transformers). -/
def oneHotAr (K : Type) [DecidableEq K] [Traits K] [Fits K] : ArClass where
  Obj := Encoder K
  save t := (oneHot K).save (t.labels, t.allowMissing)
  load := (oneHot K).load >>= fun (p : UMap K UInt32 × Bool) => pure (⟨p.1, p.2⟩ : Encoder K)

/-- The one-hot encoder behind the C interface, in a process with this byte order and address space: annotations for one column,
column 0, no existing values and at most 2^64 - 1 training items (SharedLibrary_OneHotEncoderFeaturizer.cpp 41–63, 332–365, and
likewise for the other input types; OneHotEncoderFeaturizer.h 162, 264–283).  `Transform` writes the three members of the result
to three places.  Here the values can be compared with `=`: all types but `float` and `double`. -/
def oneHotIn {K : Type} [LinearOrder K] [Traits K] [Fits K] (X : Xf (Encoder K) K K) (it : IterOrder K UInt32) (allow : Bool)
    (host : Endian) (space : Nat) (place : List UInt8 → Nat) :=
  pipelineIn (oneHotAr K) X (Xf.ofFun oneHotEncode) (encoderComponents it 0 (2 ^ 64 - 1) UMap.empty) 2 (makeOneHot 0 allow) [[]]
    host space place

/-- `NumericalizeTransformer::execute_impl` with its result, a `double` (NumericalizeFeaturizer.h 55–64). -/
def numericalizeTo {K : Type} [DecidableEq K] (labels : UMap K UInt32) (x : K) : Except Err F64 :=
  match numericalizeOne labels x with
  | some i => .ok (FloatArith.ofInt i.toNat)
  | none => .ok FloatArith.nan

/-- Numericalize behind the C interface, in a process with this byte order and address space: annotations for one column,
column 0, no existing values and at most 2^64 - 1 training items (SharedLibrary_NumericalizeFeaturizer.cpp 41–63, 332–361, and
likewise for the other input types; NumericalizeFeaturizer.h 188–252).  Here the values can be compared with `=`: all types
but `float` and `double`. -/
def numericalizeIn {K : Type} [LinearOrder K] [Traits K] [Fits K] (X : Xf (UMap K UInt32) K K) (it : IterOrder K UInt32)
    (host : Endian) (space : Nat) (place : List UInt8 → Nat) :=
  pipelineIn (numericalize K).ar X (Xf.ofFun numericalizeTo) (encoderComponents it 0 (2 ^ 64 - 1) UMap.empty) 2 (makeNumericalize 0)
    [[]] host space place

end Feat.CApi
