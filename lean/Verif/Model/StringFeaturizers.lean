import Verif.Model.RowCodec
/-
Models of StringFeaturizer.h and FromStringFeaturizer.h (src/Featurizers) for all types: the constructors'
check, and floating point numbers, whose null value is NaN. (For `nonstd::optional<T>`: Model/Text.lean.)
-/
namespace Feat.StringFeaturizers
open Feat.RowCodec

/-- What the two transformers need of `Traits<T>` besides the conversions: `IsNullableType`, and if true,
`IsNull` and `CreateNullValue` (Traits.h 323–342 for types that are not nullable, 690–706 and 768–784 for
`float` and `double`, 1500–1520 for `nonstd::optional`). -/
structure NullTraits (T : Type) where
  isNullableType : Bool
  isNull : T → Bool
  nullValue : Option T

/-- A type that is not nullable. -/
def NullTraits.plain {T : Type} : NullTraits T := ⟨false, fun _ => false, none⟩

/-- `nonstd::optional<T>`. -/
def NullTraits.optional {T : Type} : NullTraits (Option T) := ⟨true, Option.isNone, some none⟩

/-- `float`. -/
def NullTraits.float : NullTraits F32 := ⟨true, isNaN32, some ⟨0x7FC00000⟩⟩

/-- `double`. -/
def NullTraits.double : NullTraits F64 := ⟨true, isNaN64, some ⟨0x7FF8000000000000⟩⟩

/-- The constructors' check (StringFeaturizer.h 141–153 and FromStringFeaturizer.h 141–153); the result is
`_useEmptyStringsForNullValues`. -/
def makeTransformer {T : Type} (N : NullTraits T) (empty : Bool) : Except Err Bool :=
  if empty ∧ N.isNullableType = false then .error .invalidArgument else .ok empty

/-- `StringTransformer::execute_impl` (StringFeaturizer.h 68–70, 196–218). -/
def toStringExec {T : Type} [TextTraits T] (N : NullTraits T) (empty : Bool) (x : T) :
    Except Err (List UInt8) :=
  if empty then
    if N.isNullableType then
      if N.isNull x then .ok [] else .ok (TextTraits.toText x)
    else .error .runtimeError
  else .ok (TextTraits.toText x)

/-- `FromStringTransformer::execute_impl` (FromStringFeaturizer.h 68–70, 196–218). -/
def fromStringExec {T : Type} [TextTraits T] (N : NullTraits T) (empty : Bool) (s : List UInt8) :
    Except Err T :=
  if empty then
    match N.nullValue with
    | some null => if s = [] then .ok null else TextTraits.fromText s
    | none => .error .runtimeError
  else TextTraits.fromText s

end Feat.StringFeaturizers
