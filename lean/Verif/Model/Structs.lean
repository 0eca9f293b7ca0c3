import Verif.Model.Basic
/-
Model of Featurizers/Structs.h: sparse vector encodings.
-/
namespace Feat

/-- `SparseVectorEncoding<T>::ValueEncoding` (Structs.h 29–44). -/
structure ValueEncoding (T : Type) where
  value : T
  index : UInt64
  deriving DecidableEq, Repr

/-- `SparseVectorEncoding<T>` (Structs.h 20–65): only obtained from `mkSparse`. -/
structure SparseVector (T : Type) where
  numElements : UInt64
  values : List (ValueEncoding T)
  deriving DecidableEq, Repr

/-- The loop that checks the order (Structs.h 187–194), from the second element on. -/
def orderedFrom {T : Type} (prev : UInt64) : List (ValueEncoding T) → Bool
  | [] => true
  | v :: vs => if v.index ≤ prev then false else orderedFrom v.index vs

/-- The `SparseVectorEncoding` constructor (Structs.h 164–201). -/
def mkSparse {T : Type} (numElements : UInt64) (values : List (ValueEncoding T)) :
    Except Err (SparseVector T) :=
  if numElements = 0 then .error .invalidArgument
  else if numElements.toNat < values.length then .error .invalidArgument
  else match values with
    | [] => .error .invalidArgument
    | v :: vs => if orderedFrom v.index vs then .ok ⟨numElements, v :: vs⟩ else .error .invalidArgument

/-- `SingleValueSparseVectorEncoding<T>` (Structs.h 73–104): only obtained from `mkSingle`. -/
structure SingleValue (T : Type) where
  numElements : UInt64
  value : T
  index : UInt64
  deriving DecidableEq, Repr

/-- The `SingleValueSparseVectorEncoding` constructor (Structs.h 232–255). -/
def mkSingle {T : Type} (numElements : UInt64) (value : T) (index : UInt64) :
    Except Err (SingleValue T) :=
  if numElements = 0 then .error .invalidArgument
  else if index ≥ numElements then .error .invalidArgument
  else .ok ⟨numElements, value, index⟩

end Feat
