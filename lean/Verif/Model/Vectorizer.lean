import Verif.Model.DocStats
import Verif.Model.Structs
import Verif.Model.Pipeline
/-
Model of TfidfVectorizerFeaturizer.h/.cpp and CountVectorizerFeaturizer.h/.cpp (execution).
-/
namespace Feat

/-- `std::map<IterRangeType, std::uint32_t, IterRangeComp>` (TfidfVectorizerFeaturizer.h 51): the callback of
`execute_impl` (TfidfVectorizerFeaturizer.cpp 139–146): the count of the range is incremented, or it is inserted with 1. -/
def countToken (t : Str) : List (Str × UInt32) → List (Str × UInt32)
  | [] => [(t, 1)]
  | e :: es =>
    if rangeLess t e.1 then (t, 1) :: e :: es
    else if rangeLess e.1 t then e :: countToken t es
    else (e.1, e.2 + 1) :: es

/-- `documentTermFrequency` (TfidfVectorizerFeaturizer.cpp 133–147). -/
def countTokens (ts : List Str) : List (Str × UInt32) := ts.foldl (fun m t => countToken t m) []

/-- `NormMethod` (TfidfVectorizerFeaturizer.h 56–60). -/
inductive NormMethod where
  | l1 | l2 | none
  deriving DecidableEq, Repr

/-- The arithmetic of `execute_impl`: `D` is `double`, `Fl` is `float`. -/
structure TfOps (D Fl : Type) where
  /-- the conversion of a count to `double` -/
  ofCount : UInt32 → D
  one : D
  /-- `1.0 + std::log(n)` -/
  sublinear : UInt32 → D
  /-- `1.0 + std::log((1 + total) / (1.0 + df))`; the first sum is a `uint32` -/
  smoothIdf : UInt32 → UInt32 → D
  /-- `1.0 + std::log((1 + total) / (0.0 + df))` -/
  plainIdf : UInt32 → UInt32 → D
  mul : D → D → D
  /-- `static_cast<float>` -/
  toFloat : D → Fl
  zeroF : Fl
  oneF : Fl
  addF : Fl → Fl → Fl
  mulF : Fl → Fl → Fl
  divF : Fl → Fl → Fl
  sqrtF : Fl → Fl

/-- `TfidfVectorizerTransformer` (TfidfVectorizerFeaturizer.h 40–128); the four flags are the bits of `TfidfPolicy`. -/
structure Tfidf where
  labels : UMap Str UInt32
  docFreq : UMap Str UInt32
  total : UInt32
  norm : NormMethod
  binary : Bool
  useIdf : Bool
  smoothIdf : Bool
  sublinearTf : Bool
  lowercase : Bool
  text : TextConfig

/-- The constructor's checks (TfidfVectorizerFeaturizer.cpp 18–57). -/
def mkTfidf (t : Tfidf) : Except Err Tfidf :=
  if t.labels.size = 0 then .error .invalidArgument
  else if t.docFreq.size = 0 then .error .invalidArgument
  else .ok t

variable {D Fl : Type}

/-- The term frequency factor (TfidfVectorizerFeaturizer.cpp 167–173). -/
def Tfidf.tf (ops : TfOps D Fl) (t : Tfidf) (n : UInt32) : D :=
  if t.binary then ops.one
  else if t.sublinearTf = false then ops.ofCount n
  else ops.sublinear n

/-- The inverse document frequency factor (TfidfVectorizerFeaturizer.cpp 181–187); `at` throws if the word is missing. -/
def Tfidf.idf (ops : TfOps D Fl) (t : Tfidf) (word : Str) : Except Err D :=
  if t.useIdf = false then .ok ops.one
  else match t.docFreq.find? word with
    | .none => .error .outOfRange
    | .some df => .ok (if t.smoothIdf then ops.smoothIdf t.total df else ops.plainIdf t.total df)

/-- The loop over the words (TfidfVectorizerFeaturizer.cpp 149–202): `normVal` and the results, index and value. -/
def Tfidf.loop (ops : TfOps D Fl) (t : Tfidf) :
    List (Str × UInt32) → Fl → List (UInt32 × Fl) → Except Err (Fl × List (UInt32 × Fl))
  | [], norm, acc => .ok (norm, acc)
  | e :: es, norm, acc =>
    match t.labels.find? e.1 with
    | .none => t.loop ops es norm acc
    | .some i =>
      match t.idf ops e.1 with
      | .error x => .error x
      | .ok idf =>
        let v := ops.toFloat (ops.mul (t.tf ops e.2) idf)
        let norm := match t.norm with
          | .l1 => ops.addF norm v
          | .l2 => ops.addF norm (ops.mulF v v)
          | .none => norm
        t.loop ops es norm (acc ++ [(i, v)])

/-- The divisor (TfidfVectorizerFeaturizer.cpp 204–215). -/
def Tfidf.divisor (ops : TfOps D Fl) (t : Tfidf) (norm : Fl) : Fl :=
  match t.norm with
  | .l1 => norm
  | .l2 => ops.sqrtF norm
  | .none => ops.oneF

/-- `std::sort` by `Index` (TfidfVectorizerFeaturizer.cpp 223–227).  For equal indexes the order is unspecified, but then
the constructor of the sparse vector throws anyway. -/
def sortByIndex {T : Type} (vs : List (ValueEncoding T)) : List (ValueEncoding T) :=
  vs.insertionSort (fun a b => a.index.toNat ≤ b.index.toNat)

/-- `TfidfVectorizerTransformer::execute_impl` (TfidfVectorizerFeaturizer.cpp 131–230): one vector, or an exception. -/
def Tfidf.execute (ops : TfOps D Fl) (t : Tfidf) (doc : Str) : Except Err (SparseVector Fl) :=
  match t.text.executeTokens t.lowercase doc with
  | .error e => .error e
  | .ok ts =>
    match t.loop ops (countTokens ts) ops.zeroF [] with
    | .error e => .error e
    | .ok (norm, results) =>
      mkSparse (UInt64.ofNat t.labels.size)
        (sortByIndex (results.map fun r => ⟨ops.divF r.2 (t.divisor ops norm), r.1.toUInt64⟩))

/-- `create_transformer_impl` (TfidfVectorizerFeaturizer.h 202–237): labels and frequencies are the two halves of the
annotation. -/
def makeTfidf (norm : NormMethod) (binary useIdf smoothIdf sublinearTf lowercase : Bool) (text : TextConfig) (col : Nat)
    (maps : AnnotationMaps DocStats) : Except Err Tfidf :=
  match getAnnotationData (fun _ => true) maps col "DocumentStatisticsEstimator" with
  | .error e => .error e
  | .ok s =>
    mkTfidf ⟨⟨s.terms.entries.map fun e => (e.1, e.2.index), by rw [List.map_map]; exact s.terms.nodup⟩,
      ⟨s.terms.entries.map fun e => (e.1, e.2.freq), by rw [List.map_map]; exact s.terms.nodup⟩,
      s.total, norm, binary, useIdf, smoothIdf, sublinearTf, lowercase, text⟩

/-! ### Counting -/

/-- The `float` nearest to a natural number below 2³² (ties to even): 24 significant bits. -/
def roundFloat (n : Nat) : Nat :=
  if n < 2 ^ 24 then n
  else
    let e := n.log2 - 23
    let q := n / 2 ^ e
    let r := n % 2 ^ e
    if r < 2 ^ e / 2 then q * 2 ^ e
    else if 2 ^ e / 2 < r then (q + 1) * 2 ^ e
    else if q % 2 = 0 then q * 2 ^ e
    else (q + 1) * 2 ^ e

/-- The arithmetic on the path used for counting, where all values are natural numbers: conversion to `double`, products
with 1 and quotients by 1 are exact, and conversion to `float` rounds.  (The other operations are not used there.) -/
def countOps : TfOps Nat Nat where
  ofCount := UInt32.toNat
  one := 1
  sublinear := UInt32.toNat
  smoothIdf := fun _ _ => 1
  plainIdf := fun _ _ => 1
  mul := (· * ·)
  toFloat := roundFloat
  zeroF := 0
  oneF := 1
  addF := (· + ·)
  mulF := (· * ·)
  divF := (· / ·)
  sqrtF := id

/-- `static_cast<std::uint32_t>` of a `float` that is a natural number: undefined if it does not fit. -/
def castCount (n : Nat) : Except Err UInt32 := if n < 2 ^ 32 then .ok (UInt32.ofNat n) else .error .ub

/-- The conversion of all values (CountVectorizerFeaturizer.cpp 49–52). -/
def castCounts : List (ValueEncoding Nat) → Except Err (List (ValueEncoding UInt32))
  | [] => .ok []
  | v :: vs =>
    match castCount v.value with
    | .error e => .error e
    | .ok c =>
      match castCounts vs with
      | .error e => .error e
      | .ok cs => .ok (⟨c, v.index⟩ :: cs)

/-- `CountVectorizerTransformer::execute_impl` (CountVectorizerFeaturizer.cpp 43–57), for the tf-idf transformer `t` that it
wraps. -/
def countExecute (t : Tfidf) (doc : Str) : Except Err (SparseVector UInt32) :=
  match t.execute countOps doc with
  | .error e => .error e
  | .ok v =>
    match castCounts v.values with
    | .error e => .error e
    | .ok vs => mkSparse v.numElements vs

/-- What the count vectorizer's estimator passes to its tf-idf estimator (CountVectorizerFeaturizer.h 182–196): no norm, and
`Binary` or no flag at all. -/
def makeCountTfidf (binary lowercase : Bool) (text : TextConfig) (col : Nat) (maps : AnnotationMaps DocStats) :
    Except Err Tfidf :=
  makeTfidf .none binary false false false lowercase text col maps

end Feat
