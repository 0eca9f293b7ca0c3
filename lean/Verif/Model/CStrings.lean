import Verif.Model.CInference
import Verif.Model.StringFeaturizers
/-
The conversions from and to text, behind the C interface.
-/
namespace Feat.CApi
open StringFeaturizers

/-- The conversion to text behind the C interface: `empty` is given to `CreateEstimator`, and checked when the transformer is made
(SharedLibrary_StringFeaturizer.cpp 41–63; StringFeaturizer.h 112–124, 141–190, 196–218, 227–245). -/
def toTextIn {T : Type} [TextTraits T] (N : NullTraits T) (empty : Bool) (host : Endian) (space : Nat) (place : List UInt8 → Nat) :=
  inferenceIn (ι := T) (O := List UInt8) (stringConversion N.isNullableType).ar (Xf.ofFun fun (e : Bool) x => toStringExec N e x)
    (makeTransformer N empty) host space place

/-- The conversion from text behind the C interface (SharedLibrary_FromStringFeaturizer.cpp 41–63; FromStringFeaturizer.h 112–124,
141–190, 196–218, 227–245). -/
def fromTextIn {T : Type} [TextTraits T] (N : NullTraits T) (empty : Bool) (host : Endian) (space : Nat) (place : List UInt8 → Nat) :=
  inferenceIn (ι := List UInt8) (O := T) (stringConversion N.isNullableType).ar (Xf.ofFun fun (e : Bool) s => fromStringExec N e s)
    (makeTransformer N empty) host space place

end Feat.CApi
