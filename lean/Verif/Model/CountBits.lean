import Verif.Model.FloatTfidf
/-
The count vectorizer on the bits of its `float` numbers.
-/
namespace Feat.FloatTfidf
open Feat.FloatArith

/-- `static_cast<std::uint32_t>` of a `float` (CountVectorizerFeaturizer.cpp 51): the fraction is cut off; undefined if the
number is not finite or what is left does not fit. -/
def castUInt32 (x : F32) : Except Err UInt32 :=
  if isNaN x || isInf x then .error .ub
  else if neg? x && decide (units x / 2 ^ (fmt F32).scale ≠ 0) then .error .ub
  else if units x / 2 ^ (fmt F32).scale < 2 ^ 32 then .ok (UInt32.ofNat (units x / 2 ^ (fmt F32).scale))
  else .error .ub

/-- The conversion of all values (CountVectorizerFeaturizer.cpp 49–52). -/
def castAll : List (ValueEncoding F32) → Except Err (List (ValueEncoding UInt32))
  | [] => .ok []
  | v :: vs =>
    match castUInt32 v.value with
    | .error e => .error e
    | .ok c =>
      match castAll vs with
      | .error e => .error e
      | .ok cs => .ok (⟨c, v.index⟩ :: cs)

/-- `CountVectorizerTransformer::execute_impl` (CountVectorizerFeaturizer.cpp 43–57), for the tf-idf transformer `t` that it
wraps, in `double` and `float` arithmetic. -/
def countBits (log : F64 → F64) (t : Tfidf) (doc : Str) : Except Err (SparseVector UInt32) :=
  match t.execute (floatOps log) doc with
  | .error e => .error e
  | .ok v =>
    match castAll v.values with
    | .error e => .error e
    | .ok vs => mkSparse v.numElements vs

end Feat.FloatTfidf
