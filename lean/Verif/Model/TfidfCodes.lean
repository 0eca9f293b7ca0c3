import Verif.Model.Transformers
import Verif.Model.Vectorizer
/-
The options of the tf-idf vectorizer as the numbers that the C interface and archives pass
(SharedLibrary_TfidfVectorizerFeaturizer.cpp 41–49, TfidfVectorizerFeaturizer.cpp 60–94): they are cast to the enumerations and
not checked.
-/
namespace Feat.TfidfCodes
variable {D Fl : Type}

/-- The branches on `AnalyzerMethod` (DocumentStatisticsEstimator.cpp 375–412 and 431–443, enumerators .h 29–33): the last
branch is taken for all other numbers.  Simplified: asserts are disabled; with them a number other than 3 ends the program
there. -/
def analyzerOf (code : UInt8) : Analyzer := if code = 1 then .word else if code = 2 then .char else .charwb

/-- `(_tfidfParameters & flag) == flag` (TfidfVectorizerFeaturizer.cpp 167–183, TfidfVectorizerFeaturizer.h 310–324). -/
def has (policy flag : UInt32) : Bool := policy &&& flag == flag

/-- The transformer with the members `p` (TfidfVectorizerFeaturizer.cpp 18–57, flags TfidfVectorizerFeaturizer.h 23–30).
`regex` is what `ParseRegex` yields with an expression.  The norm is a parameter of the functions below; the field `norm`
is not used by them. -/
def ofParams (regex : Str → Str → Except Err (List (Nat × Nat))) : TfidfParams → Tfidf
  | (labels, docFreq, total, _, policy, lowercase, analyzer, token, lo, hi) =>
    { labels := labels, docFreq := docFreq, total := total, norm := .none
      binary := has policy 1, useIdf := has policy 2, smoothIdf := has policy 4, sublinearTf := has policy 8
      lowercase := lowercase
      text := ⟨analyzerOf analyzer, if token.chars.isEmpty then none else some (regex token), lo.toNat, hi.toNat⟩ }

/-- The loop over the words (TfidfVectorizerFeaturizer.cpp 149–202) with the number `code` in `_norm`. -/
def loop (ops : TfOps D Fl) (code : UInt8) (t : Tfidf) :
    List (Str × UInt32) → Fl → List (UInt32 × Fl) → Except Err (Fl × List (UInt32 × Fl))
  | [], norm, acc => .ok (norm, acc)
  | e :: es, norm, acc =>
    match t.labels.find? e.1 with
    | .none => loop ops code t es norm acc
    | .some i =>
      match t.idf ops e.1 with
      | .error x => .error x
      | .ok idf =>
        let v := ops.toFloat (ops.mul (t.tf ops e.2) idf)
        let norm := if code = 1 then ops.addF norm v else if code = 2 then ops.addF norm (ops.mulF v v) else norm
        loop ops code t es norm (acc ++ [(i, v)])

/-- `normVal` after TfidfVectorizerFeaturizer.cpp 204–215. -/
def divisor (ops : TfOps D Fl) (code : UInt8) (norm : Fl) : Fl :=
  let norm := if code = 2 then ops.sqrtF norm else norm
  if code = 3 then ops.oneF else norm

/-- `TfidfVectorizerTransformer::execute_impl` (TfidfVectorizerFeaturizer.cpp 131–230). -/
def execute (ops : TfOps D Fl) (regex : Str → Str → Except Err (List (Nat × Nat))) (p : TfidfParams) (doc : Str) :
    Except Err (SparseVector Fl) :=
  let t := ofParams regex p
  let code := p.2.2.2.1
  match t.text.executeTokens t.lowercase doc with
  | .error e => .error e
  | .ok ts =>
    match loop ops code t (countTokens ts) ops.zeroF [] with
    | .error e => .error e
    | .ok (norm, results) =>
      mkSparse (UInt64.ofNat t.labels.size)
        (sortByIndex (results.map fun r => ⟨ops.divF r.2 (divisor ops code norm), r.1.toUInt64⟩))

end Feat.TfidfCodes
