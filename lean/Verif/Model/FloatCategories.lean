import Verif.Model.Encoders
import Verif.Model.FloatArith
/-
The categorical estimators and encoders on columns of `float` and `double`: keys are compared with `==` and `<` of floating
point numbers, for which a NaN is different from every number, and -0 equal to +0.
-/
namespace Feat.FloatCategories
open Feat.FloatArith
variable {T : Type} [FloType T]

/-- `std::unordered_map` from `float` or `double` to numbers: its entries. -/
abbrev Entries (T : Type) := List (T × UInt32)

/-- `Traits<std::float_t>::key_equal` and `Traits<std::double_t>::key_equal` (Traits.h 675–691, 753–769): NaNs are equal. -/
def keyEqual (a b : T) : Bool := (isNaN a && isNaN b) || eq a b

/-- Which entries of a table are compared with the key searched for: those in its bucket.  `std::hash` is equal for equal
numbers, so that these are in the same bucket; it is different for NaNs with different bits, so that these may be in the same
bucket or not; a key that is itself in the table is found, unless another one, equal by `key_equal`, is found before it. -/
structure Probe (T : Type) [FloType T] where
  looks : Entries T → T → T → Bool
  numbers : ∀ m k x, eq k x = true → looks m k x = true
  present : ∀ m x, (∃ e ∈ m, e.1 = x ∧ keyEqual x x = true) → ∃ e ∈ m, looks m e.1 x = true ∧ keyEqual e.1 x = true

/-- `find` in a table with `key_equal` (`IndexMap`, IndexMapEstimator.h 30–36; `OrderMap`, OrderEstimator.h 31–37). -/
def find (p : Probe T) (m : Entries T) (x : T) : Option UInt32 :=
  (m.find? fun e => p.looks m e.1 x && keyEqual e.1 x).map (·.2)

/-- `emplace` in such a table: nothing if an equal key is found. -/
def emplace (p : Probe T) (m : Entries T) (x : T) (v : UInt32) : Entries T :=
  if (find p m x).isSome then m else m ++ [(x, v)]

/-- The annotations of the estimators on the column, as `CatAnnot`. -/
inductive Annot (T : Type) where
  | histogram (m : Entries T)
  | order (m : Entries T)
  | indexMap (m : Entries T)
  | mode (k : T)

/-- `dynamic_cast<HistogramAnnotationData<T> *>`. -/
def Annot.isHistogram : Annot T → Bool | .histogram _ => true | _ => false
/-- `dynamic_cast<OrderAnnotationData<T> *>`. -/
def Annot.isOrder : Annot T → Bool | .order _ => true | _ => false
/-- `dynamic_cast<IndexMapAnnotationData<T> *>`. -/
def Annot.isIndexMap : Annot T → Bool | .indexMap _ => true | _ => false
/-- `dynamic_cast<ModeAnnotationData<T> *>`. -/
def Annot.isMode : Annot T → Bool | .mode _ => true | _ => false

/-- `HistogramTrainingOnlyPolicy::fit` (HistogramEstimator.h 135–150): the count of the entry that was found, or of the one
inserted with 0, is incremented.  `Histogram` (31) has `std::equal_to`, with which a NaN is never found. -/
def count : Entries T → T → Entries T
  | [], x => [(x, 0 + 1)]
  | e :: es, x => if eq e.1 x then (e.1, e.2 + 1) :: es else e :: count es x

/-- `HistogramTrainingOnlyPolicy` (HistogramEstimator.h 135–155). -/
def histogramPolicy : Policy (Entries T) T (Annot T) where
  begin _ s := (.ok true, s)
  fit x m := (.ok (), count m x)
  complete _ m := (.ok (.histogram m), [])

/-- `HistogramEstimator` on column `col` (HistogramEstimator.h 104–113). -/
def histogramConfig (col : Nat) : TrainingOnlyConfig (Annot T) := ⟨col, "HistogramEstimator", true, Annot.isHistogram⟩

/-- `OrderTrainingOnlyPolicy` (OrderEstimator.h 150–183). -/
def orderPolicy (p : Probe T) : Policy (Entries T) T (Annot T) where
  begin _ s := (.ok true, s)
  fit x m := (.ok (), emplace p m x (UInt32.ofNat m.length))
  complete _ m := (if m.length = 0 then .error .invalidArgument else .ok (.order m), [])

/-- `OrderEstimator` on column `col` (OrderEstimator.h 185–200). -/
def orderConfig (col : Nat) : TrainingOnlyConfig (Annot T) := ⟨col, "OrderEstimator", true, Annot.isOrder⟩

/-- The requirement of `std::sort` on `<`, as far as it can fail for floating point numbers: that neither is less is transitive
on the elements. -/
def sortable (l : List T) : Bool :=
  l.all fun a => l.all fun b => l.all fun c =>
    lt a b || lt b a || lt b c || lt c b || (!lt a c && !lt c a)

/-- `std::sort` with `<` (IndexMapEstimator.h 175): undefined behaviour if the requirement is not met.  Elements of which neither
is less end up in some order; as they come in an arbitrary order, this one is as good as any other. -/
def sortKeys (l : List T) : Except Err (List T) :=
  if sortable l then .ok (l.insertionSort fun a b => !lt b a) else .error .ub

/-- The second loop of `CreateIndexMap` (IndexMapEstimator.h 183–188). -/
def indexKeys (p : Probe T) : List T → Entries T → Entries T
  | [], m => m
  | k :: ks, m => indexKeys p ks (emplace p m k (UInt32.ofNat m.length))

/-- `CreateIndexMap` (IndexMapEstimator.h 157–191). -/
def createIndexMap (p : Probe T) (it : IterOrder T UInt32) (histogram existing : Entries T) : Except Err (Entries T) :=
  match sortKeys (((it.order histogram).map (·.1)).filter fun k => (find p existing k).isNone) with
  | .error e => .error e
  | .ok keys => .ok (indexKeys p keys existing)

/-- `IndexMapTrainingOnlyPolicy` (IndexMapEstimator.h 225–244). -/
def indexMapPolicy (p : Probe T) (it : IterOrder T UInt32) (col : Nat) : Policy (Entries T) T (Annot T) where
  begin _ s := (.ok true, s)
  fit _ s := (.error .runtimeError, s)
  complete maps s :=
    match getAnnotationData Annot.isHistogram maps col "HistogramEstimator" with
    | .error e => (.error e, s)
    | .ok (.histogram h) =>
      match createIndexMap p it h s with
      | .error e => (.error e, s)
      | .ok m => (.ok (.indexMap m), [])
    | .ok _ => (.error .ub, s)

/-- `IndexMapEstimator` (IndexMapEstimator.h 207–216). -/
def indexMapConfig (col : Nat) : TrainingOnlyConfig (Annot T) := ⟨col, "IndexMapEstimator", false, Annot.isIndexMap⟩

/-- The loop of `ModeTrainingOnlyPolicy::complete_training` (ModeEstimator.h 208–234), nulls (NaN) not allowed as mode. -/
def modeLoop (p : Probe T) (order : Entries T) : List (T × UInt32) → Option ((T × UInt32) × UInt32) →
    Except Err (Option ((T × UInt32) × UInt32))
  | [], best => .ok best
  | e :: es, best =>
    if modeAtLeast best e.2 then
      if isNaN e.1 then modeLoop p order es best
      else match find p order e.1 with
        | none => .error .ub
        | some i => if modeTieLater best e.2 i then modeLoop p order es best else modeLoop p order es (some (e, i))
    else modeLoop p order es best

/-- `ModeTrainingOnlyPolicy` (ModeEstimator.h 155–158, 187–241). -/
def modePolicy (p : Probe T) (it : IterOrder T UInt32) (col : Nat) : Policy Unit T (Annot T) where
  begin _ s := (.ok true, s)
  fit _ s := (.error .runtimeError, s)
  complete maps s :=
    match getAnnotationData Annot.isHistogram maps col "HistogramEstimator" with
    | .error e => (.error e, s)
    | .ok h =>
      match getAnnotationData Annot.isOrder maps col "OrderEstimator" with
      | .error e => (.error e, s)
      | .ok o =>
        match h, o with
        | .histogram h, .order o =>
          if h.length = 0 ∨ o.length = 0 then (.error .runtimeError, s)
          else match modeLoop p o (it.order h) none with
            | .error e => (.error e, s)
            | .ok none => (.error .runtimeError, s)
            | .ok (some (b, _)) => (.ok (.mode b.1), s)
        | _, _ => (.error .ub, s)

/-- `ModeEstimator` (ModeEstimator.h 144–146). -/
def modeConfig (col : Nat) : TrainingOnlyConfig (Annot T) := ⟨col, "ModeEstimator", false, Annot.isMode⟩

/-- A label encoder or one-hot encoder transformer: `Labels` and `AllowMissingValues`. -/
structure Encoder (T : Type) where
  labels : Entries T
  allowMissing : Bool

/-- `LabelEncoderTransformer::execute_impl` (LabelEncoderFeaturizer.h 62–75). -/
def labelEncode (p : Probe T) (t : Encoder T) (input : T) : Except Err UInt32 :=
  match find p t.labels input with
  | none => if t.allowMissing then .ok 0 else .error .invalidArgument
  | some i => .ok (i + if t.allowMissing then 1 else 0)

/-- `OneHotEncoderTransformer::execute_impl` (OneHotEncoderFeaturizer.h 63–82). -/
def oneHotEncode (p : Probe T) (t : Encoder T) (input : T) : Except Err (SingleValue UInt8) :=
  let offset : UInt64 := if t.allowMissing then 1 else 0
  match find p t.labels input with
  | none =>
    if t.allowMissing = false then .error .invalidArgument
    else mkSingle (UInt64.ofNat t.labels.length + offset) 1 0
  | some i => mkSingle (UInt64.ofNat t.labels.length + offset) 1 (i.toUInt64 + offset)

/-- `NumericalizeTransformer::execute_impl` (NumericalizeFeaturizer.h 55–64): the index as a `double`, or NaN (`none`). -/
def numericalizeOne (p : Probe T) (labels : Entries T) (input : T) : Option UInt32 := find p labels input

/-- The components of `LabelEncoderEstimator` (LabelEncoderFeaturizer.h 258–266), `OneHotEncoderEstimator`
(OneHotEncoderFeaturizer.h 275–283) and `NumericalizeEstimator` (NumericalizeFeaturizer.h 244–250) for `float` and `double`. -/
def encoderComponents (p : Probe T) (it : IterOrder T UInt32) (col cap : Nat) :
    (i : Nat) → Component (twoStates (Entries T) (Entries T) i) T (Annot T) :=
  twoComponents ⟨histogramPolicy, histogramConfig col, cap, []⟩ ⟨indexMapPolicy p it col, indexMapConfig col, cap, []⟩

/-- The index map found by `get_annotation_data` in `create_transformer_impl`. -/
def trainedLabels (col : Nat) (maps : AnnotationMaps (Annot T)) : Except Err (Entries T) :=
  match getAnnotationData Annot.isIndexMap maps col "IndexMapEstimator" with
  | .error e => .error e
  | .ok (.indexMap m) => .ok m
  | .ok _ => .error .ub

/-- `LabelEncoderEstimatorImpl::create_transformer_impl` (LabelEncoderFeaturizer.h 133–142). -/
def makeLabelEncoder (col : Nat) (allow : Bool) (maps : AnnotationMaps (Annot T)) : Except Err (Encoder T) :=
  match trainedLabels col maps with
  | .error e => .error e
  | .ok m => .ok ⟨m, allow⟩

/-- `OneHotEncoderEstimatorImpl::create_transformer_impl` (OneHotEncoderFeaturizer.h 141–150, 213–225). -/
def makeOneHot (col : Nat) (allow : Bool) (maps : AnnotationMaps (Annot T)) : Except Err (Encoder T) :=
  match trainedLabels col maps with
  | .error e => .error e
  | .ok m => if m.length = 0 then .error .invalidArgument else .ok ⟨m, allow⟩

/-- `NumericalizeEstimatorImpl::create_transformer_impl` (NumericalizeFeaturizer.h 123–132). -/
def makeNumericalize (col : Nat) (maps : AnnotationMaps (Annot T)) : Except Err (Entries T) := trainedLabels col maps

/-- The components of `ModeImputerEstimator` (ModeImputerFeaturizer.h 107–114) and `CatImputerEstimator`
(CatImputerFeaturizer.h 143–148) for `float` and `double`. -/
def modeComponents (p : Probe T) (it : IterOrder T UInt32) (col cap : Nat) :
    (i : Nat) → Component (threeStates (Entries T) (Entries T) Unit i) T (Annot T) :=
  threeComponents ⟨histogramPolicy, histogramConfig col, cap, []⟩ ⟨orderPolicy p, orderConfig col, cap, []⟩
    ⟨modePolicy p it col, modeConfig col, cap, ()⟩

/-- `ModeImputerEstimatorImpl::create_transformer_impl` (ModeImputerFeaturizer.h 70–93): `GetNullableValue` (Traits.h 701–706,
779–784) rejects a NaN. -/
def makeModeImputer (col : Nat) (maps : AnnotationMaps (Annot T)) : Except Err T :=
  match getAnnotationData Annot.isMode maps col "ModeEstimator" with
  | .error e => .error e
  | .ok (.mode k) => if isNaN k then .error .runtimeError else .ok k
  | .ok _ => .error .ub

end Feat.FloatCategories
