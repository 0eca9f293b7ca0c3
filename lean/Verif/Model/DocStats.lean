import Verif.Model.Categorical
import Verif.Model.Strings
import Verif.Model.Types
/-
Model of Components/DocumentStatisticsEstimator.h and .cpp.

A `std::string` is a `Str` (bytes).  The regular expression engine is a parameter.  Quotients of floats are a parameter:
only comparisons are made with them, which are parameters, too.
-/
namespace Feat

/-! ### Tokens -/

/-- `AnalyzerMethod` (DocumentStatisticsEstimator.h 29–33). -/
inductive Analyzer where
  | word | char | charwb
  deriving DecidableEq, Repr

/-- How documents are split: analyzer, the regular expression (`none` when the string is empty, otherwise what
`ParseRegex` with it yields) and the n-gram range. -/
structure TextConfig where
  analyzer : Analyzer
  regex : Option (Str → Except Err (List (Nat × Nat)))
  lo : Nat
  hi : Nat

/-- The preparation of the text before it is parsed (DocumentStatisticsEstimator.h 297–312; the same in
`DocumentDecorator`, DocumentStatisticsEstimator.cpp 431–445). -/
def TextConfig.prepare (c : TextConfig) (s : Str) : Except Err Str :=
  match c.analyzer with
  | .word => if c.regex.isNone && !(c.lo == 1 && c.hi == 1) then .ok ⟨replaceAndDeDuplicate s.chars⟩ else .ok s
  | .char => .ok ⟨replaceAndDeDuplicate s.chars⟩
  | .charwb => (stringPadding (replaceAndDeDuplicate s.chars)).map Str.mk

/-- `DocumentParseFuncGenerator` (DocumentStatisticsEstimator.cpp 374–424): what the returned function passes to its
callback. -/
def TextConfig.parse (c : TextConfig) (s : Str) : Except Err (List (Nat × Nat)) :=
  match c.analyzer with
  | .word =>
    match c.regex with
    | some f => f s
    | none => if c.lo == 1 && c.hi == 1 then .ok (parseWords isSpace s.chars) else parseNgramWord isSpace c.lo c.hi s.chars
  | .char => parseNgramChar c.lo c.hi s.chars
  | .charwb => parseNgramCharwb isSpace c.lo c.hi s.chars

/-- The strings between the iterators that are passed to the callback when a document is prepared and parsed. -/
def TextConfig.tokens (c : TextConfig) (s : Str) : Except Err (List Str) :=
  match c.prepare s with
  | .error e => .error e
  | .ok t =>
    match c.parse t with
    | .error e => .error e
    | .ok rs => .ok (rs.map fun r => ⟨between t.chars r⟩)

/-- `DocumentDecorator` followed by the parse function, as in `TfidfVectorizerTransformer::execute_impl`
(DocumentStatisticsEstimator.cpp 426–446, TfidfVectorizerFeaturizer.cpp 135–147): the whole document is turned into lower
case first. -/
def TextConfig.executeTokens (c : TextConfig) (lower : Bool) (s : Str) : Except Err (List Str) :=
  c.tokens (if lower then ⟨toLower s.chars⟩ else s)

/-! ### Sets and maps ordered by a comparison function -/

/-- The second loop of `IterRangeComp::operator()` (DocumentStatisticsEstimator.cpp 31–41); `char` is
signed. -/
def charsLess : List UInt8 → List UInt8 → Bool
  | a :: as, b :: bs =>
    if b.toInt8 < a.toInt8 then false else if a.toInt8 < b.toInt8 then true else charsLess as bs
  | _, _ => false

/-- `IterRangeComp::operator()` (DocumentStatisticsEstimator.cpp 17–42) on the characters of the two ranges: the shorter
first, then by the first different character. -/
def rangeLess (a b : Str) : Bool :=
  if a.chars.length < b.chars.length then true
  else if b.chars.length < a.chars.length then false
  else charsLess a.chars b.chars

/-- `std::set::insert` with the comparison `lt`, on the elements in order. -/
def setInsert {K : Type} (lt : K → K → Bool) (x : K) : List K → List K
  | [] => [x]
  | y :: ys => if lt x y then x :: y :: ys else if lt y x then y :: setInsert lt x ys else y :: ys

/-! ### Training -/

/-- The constant members of `DocumentStatisticsTrainingOnlyPolicy` (DocumentStatisticsEstimator.h 148–160); `F` is
`std::float_t`. -/
structure DocConfig (F : Type) where
  text : TextConfig
  decorator : Option (Str → Str)
  vocabulary : Option (UMap Str UInt32)
  topK : Option UInt32
  minDf : F
  maxDf : F

/-- What is used of floats: comparison with `<`, the constants 0 and 1, and the quotient of a count and the number of documents
(both converted to `float`). -/
structure FloatOps (F : Type) where
  lt : F → F → Bool
  zero : F
  one : F
  ratio : UInt32 → UInt32 → F

/-- The constructor's checks (DocumentStatisticsEstimator.cpp 105–190); n-gram sizes are checked last but for `lo > hi`. -/
def DocConfig.check {F : Type} (fl : FloatOps F) (c : DocConfig F) : Except Err Unit :=
  if c.vocabulary.any (fun v => v.size == 0) then .error .invalidArgument
  else if c.topK = some 0 then .error .invalidArgument
  else if fl.lt c.minDf fl.zero || fl.lt fl.one c.minDf then .error .invalidArgument
  else if fl.lt c.maxDf fl.zero || fl.lt fl.one c.maxDf then .error .invalidArgument
  else if c.text.lo = 0 then .error .invalidArgument
  else if c.text.hi = 0 then .error .invalidArgument
  else if fl.lt c.maxDf c.minDf then .error .invalidArgument
  else if c.text.lo > c.text.hi then .error .invalidArgument
  else .ok ()

/-- The members that change: `_termFrequency`, `_totalNumDocuments`. -/
structure DocState where
  termFrequency : UMap Str UInt32
  total : UInt32

/-- The set `documents` of `fit_impl` (DocumentStatisticsEstimator.h 295, 314–319): with a decorator a set of decorated
strings, otherwise a set of ranges. -/
def DocConfig.distinct {F : Type} (c : DocConfig F) (tokens : List Str) : List Str :=
  match c.decorator with
  | some d => (tokens.map d).foldl (fun s t => setInsert (fun a b => decide (a < b)) t s) []
  | none => tokens.foldl (fun s t => setInsert rangeLess t s) []

/-- `getCountFunc(key) += 1` (DocumentStatisticsEstimator.h 321–336). -/
def countTerm (m : UMap Str UInt32) (k : Str) : UMap Str UInt32 :=
  (match m.find? k with
    | some _ => m
    | none => m.emplace k 0).update k (· + 1)

/-- `fit` and `fit_impl` (DocumentStatisticsEstimator.cpp 192–220, DocumentStatisticsEstimator.h 293–339). -/
def DocConfig.fit {F : Type} (c : DocConfig F) (doc : Str) (s : DocState) : Except Err Unit × DocState :=
  match c.text.tokens doc with
  | .error e => (.error e, s)
  | .ok ts => (.ok (), ⟨(c.distinct ts).foldl countTerm s.termFrequency, s.total + 1⟩)

/-! ### Pruning -/

/-- Erasing from a map every entry that does not satisfy the test, while iterating over it. -/
def UMap.filter {K V : Type} (m : UMap K V) (p : K × V → Bool) : UMap K V :=
  ⟨m.entries.filter p, (List.filter_sublist.map _).nodup m.nodup⟩

/-- `std::nth_element` with `std::greater`: its contract is all that is assumed. -/
structure NthElement where
  run : List UInt32 → Nat → List UInt32
  perm : ∀ l n, (run l n).Perm l
  before : ∀ l n i, n < l.length → i < n → (run l n).getD i 0 ≥ (run l n).getD n 0
  after : ∀ l n i, n < i → i < l.length → (run l n).getD i 0 ≤ (run l n).getD n 0

/-- The trimming by the bounds on the document frequency (DocumentStatisticsEstimator.cpp 232–244). -/
def trimByDf {F : Type} (fl : FloatOps F) (minDf maxDf : F) (total : UInt32) (m : UMap Str UInt32) :
    UMap Str UInt32 :=
  if fl.lt fl.zero minDf || fl.lt maxDf fl.one then
    m.filter fun e => !(fl.lt (fl.ratio e.2 total) minDf || fl.lt maxDf (fl.ratio e.2 total))
  else m

/-- The trimming to the `k` most frequent terms (DocumentStatisticsEstimator.cpp 246–325).  `k` is cast to `int` to move
an iterator: out of range from 2³¹ on. -/
def trimTopK (it : IterOrder Str UInt32) (nth : NthElement) (topK : Option UInt32) (m : UMap Str UInt32) :
    Except Err (UMap Str UInt32) :=
  match topK with
  | none => .ok m
  | some k =>
    if m.size = 0 ∨ k.toNat ≥ m.size then .ok m
    else if k.toNat ≥ 2 ^ 31 then .error .ub
    else
      let v := nth.run ((it.order m.entries).map (·.2)) (k.toNat - 1)
      let target := v.getD (k.toNat - 1) 0
      let remaining := (v.take k.toNat).count target
      let m' := m.filter fun e => !decide (e.2 < target)
      let candidates := ((it.order m'.entries).filter fun e => e.2 == target).map (·.1)
      let sorted := candidates.insertionSort (· ≤ ·)
      .ok (m'.filter fun e => !decide (e.1 ∈ sorted.drop remaining))

/-- `PruneTermFreqMap` (DocumentStatisticsEstimator.cpp 224–328). -/
def pruneTerms {F : Type} (it : IterOrder Str UInt32) (nth : NthElement) (fl : FloatOps F)
    (minDf maxDf : F) (topK : Option UInt32) (total : UInt32) (m : UMap Str UInt32) : Except Err (UMap Str UInt32) :=
  trimTopK it nth topK (trimByDf fl minDf maxDf total m)

/-- `FrequencyAndIndex` (DocumentStatisticsEstimator.h 50–58). -/
structure FreqIndex where
  freq : UInt32
  index : UInt32
  deriving DecidableEq, Repr

/-- The constructor of `FrequencyAndIndex` (DocumentStatisticsEstimator.cpp 49–61). -/
def mkFreqIndex (f i : UInt32) : Except Err FreqIndex := if f = 0 then .error .invalidArgument else .ok ⟨f, i⟩

/-- `MergeTwoMapsWithSameKeys` (DocumentStatisticsEstimator.cpp 333–349), over the entries still to be visited. -/
def mergeMaps (index : UMap Str UInt32) : List (Str × UInt32) → UMap Str FreqIndex → Except Err (UMap Str FreqIndex)
  | [], m => .ok m
  | e :: es, m =>
    match index.find? e.1 with
    | none => .error .invalidArgument
    | some i =>
      match mkFreqIndex e.2 i with
      | .error x => .error x
      | .ok fi => mergeMaps index es (m.emplace e.1 fi)

/-- `DocumentStatisticsAnnotationData` (DocumentStatisticsEstimator.h 65–95). -/
structure DocStats where
  terms : UMap Str FreqIndex
  total : UInt32

/-- The constructor of `DocumentStatisticsAnnotationData` (DocumentStatisticsEstimator.cpp 72–94). -/
def mkDocStats (terms : UMap Str FreqIndex) (total : UInt32) : Except Err DocStats :=
  if terms.size = 0 then .error .invalidArgument
  else if total = 0 then .error .invalidArgument
  else .ok ⟨terms, total⟩

/-- `complete_training` (DocumentStatisticsEstimator.cpp 351–367). -/
def DocConfig.complete {F : Type} (it : IterOrder Str UInt32) (nth : NthElement) (fl : FloatOps F)
    (c : DocConfig F) (s : DocState) : Except Err DocStats :=
  match pruneTerms it nth fl c.minDf c.maxDf c.topK s.total s.termFrequency with
  | .error e => .error e
  | .ok pruned =>
    match mergeMaps (createIndexMap it pruned (c.vocabulary.getD UMap.empty)) (it.order pruned.entries) UMap.empty with
    | .error e => .error e
    | .ok terms => mkDocStats terms s.total

/-- `DocumentStatisticsTrainingOnlyPolicy` (DocumentStatisticsEstimator.h 101–180); the frequencies are moved out on
completion. -/
def docStatsPolicy {F : Type} (it : IterOrder Str UInt32) (nth : NthElement) (fl : FloatOps F)
    (c : DocConfig F) : Policy DocState Str DocStats where
  begin _ s := (.ok true, s)
  fit := c.fit
  complete _ s := (c.complete it nth fl s, ⟨UMap.empty, s.total⟩)

/-- `DocumentStatisticsEstimator` (DocumentStatisticsEstimator.h 188–290). -/
def docStatsConfig (col : Nat) : TrainingOnlyConfig DocStats :=
  ⟨col, "DocumentStatisticsEstimator", true, fun _ => true⟩

end Feat
