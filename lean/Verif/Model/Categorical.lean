import Verif.Model.UMapOps
import Verif.Model.TrainingOnly
import Mathlib.Order.Defs.LinearOrder
import Mathlib.Data.List.Sort
/-
Model of Components/HistogramEstimator.h, OrderEstimator.h, IndexMapEstimator.h and ModeEstimator.h.

Simplification: keys are a type with decidable equality; for `float`/`double` this excludes NaN (which is
not equal to itself) and identifies no two different values (−0 and +0).
-/
namespace Feat
variable {K : Type}

/-- The annotations of the categorical estimators: `HistogramAnnotationData<T>`, `OrderAnnotationData<T>`,
`IndexMapAnnotationData<T>`, `ModeAnnotationData<T>`. -/
inductive CatAnnot (K : Type) where
  | histogram (m : UMap K UInt32)
  | order (m : UMap K UInt32)
  | indexMap (m : UMap K UInt32)
  | mode (k : K)

/-- `dynamic_cast<HistogramAnnotationData<T> *>`. -/
def CatAnnot.isHistogram : CatAnnot K → Bool | .histogram _ => true | _ => false
/-- `dynamic_cast<OrderAnnotationData<T> *>`. -/
def CatAnnot.isOrder : CatAnnot K → Bool | .order _ => true | _ => false
/-- `dynamic_cast<IndexMapAnnotationData<T> *>`. -/
def CatAnnot.isIndexMap : CatAnnot K → Bool | .indexMap _ => true | _ => false
/-- `dynamic_cast<ModeAnnotationData<T> *>`. -/
def CatAnnot.isMode : CatAnnot K → Bool | .mode _ => true | _ => false

/-! ### Histogram -/

/-- `HistogramTrainingOnlyPolicy` (HistogramEstimator.h 137–158): `fit` finds or inserts the value with
count 0 and adds one (32-bit, wrapping); `complete_training` moves the map out. -/
def histogramPolicy [DecidableEq K] : Policy (UMap K UInt32) K (CatAnnot K) where
  begin _ s := (.ok true, s)
  fit k m := (.ok (), (match m.find? k with
    | some _ => m
    | none => m.emplace k 0).update k (· + 1))
  complete _ m := (.ok (.histogram m), UMap.empty)

/-- `HistogramEstimator` on column `col` (HistogramEstimator.h 104–113; name L24). -/
def histogramConfig (col : Nat) : TrainingOnlyConfig (CatAnnot K) :=
  ⟨col, "HistogramEstimator", true, CatAnnot.isHistogram⟩

/-! ### Order -/

/-- `OrderTrainingOnlyPolicy` (OrderEstimator.h 150–183): `fit` emplaces the value with the current size
(cast to 32 bits); `OrderAnnotationData` rejects an empty map. -/
def orderPolicy [DecidableEq K] : Policy (UMap K UInt32) K (CatAnnot K) where
  begin _ s := (.ok true, s)
  fit k m := (.ok (), m.emplace k (UInt32.ofNat m.size))
  complete _ m := (if m.size = 0 then .error .invalidArgument else .ok (.order m), UMap.empty)

/-- `OrderEstimator` on column `col` (OrderEstimator.h 185–200). -/
def orderConfig (col : Nat) : TrainingOnlyConfig (CatAnnot K) :=
  ⟨col, "OrderEstimator", true, CatAnnot.isOrder⟩

/-! ### Index map -/

/-- The second loop of `CreateIndexMap` (IndexMapEstimator.h 183–188). -/
def indexKeys [DecidableEq K] : List K → UMap K UInt32 → UMap K UInt32
  | [], m => m
  | k :: ks, m => indexKeys ks (m.emplace k (UInt32.ofNat m.size))

/-- `CreateIndexMap` (IndexMapEstimator.h 157–191): the keys of the histogram, in its iteration order, that
are not yet present, sorted (`std::sort`; the keys are distinct, so the result does not depend on the
algorithm), then numbered from the current size of the map on. -/
def createIndexMap [LinearOrder K] (it : IterOrder K UInt32) (histogram existing : UMap K UInt32) :
    UMap K UInt32 :=
  let keys := ((it.order histogram.entries).map (·.1)).filter (fun k => (existing.find? k).isNone)
  indexKeys (keys.insertionSort (· ≤ ·)) existing

/-- `get_annotation_data` (TrainingOnlyEstimatorImpl.h 304–312): throws if there is none. -/
def getAnnotationData {α : Type} (kind : α → Bool) (maps : AnnotationMaps α) (col : Nat) (name : String) :
    Except Err α :=
  match getAnnotation kind maps col name with
  | .error e => .error e
  | .ok none => .error .runtimeError
  | .ok (some a) => .ok a

/-- `IndexMapTrainingOnlyPolicy` (IndexMapEstimator.h 225–244). -/
def indexMapPolicy [LinearOrder K] (it : IterOrder K UInt32) (col : Nat) :
    Policy (UMap K UInt32) K (CatAnnot K) where
  begin _ s := (.ok true, s)
  fit _ s := (.error .runtimeError, s)
  complete maps s :=
    match getAnnotationData CatAnnot.isHistogram maps col "HistogramEstimator" with
    | .error e => (.error e, s)
    | .ok (.histogram h) => (.ok (.indexMap (createIndexMap it h s)), UMap.empty)
    | .ok _ => (.error .ub, s)

/-- `IndexMapEstimator` (IndexMapEstimator.h 207–216): `requiresTraining` is false. -/
def indexMapConfig (col : Nat) : TrainingOnlyConfig (CatAnnot K) :=
  ⟨col, "IndexMapEstimator", false, CatAnnot.isIndexMap⟩

/-! ### Mode -/

/-- `iterMode == end() || iter->second >= iterMode->second` (ModeEstimator.h 216). -/
def modeAtLeast (best : Option ((K × UInt32) × UInt32)) (n : UInt32) : Bool :=
  match best with
  | none => true
  | some (b, _) => decide (n ≥ b.2)

/-- `iterMode != end() && iter->second == iterMode->second && iterModeIndex->second > modeIndex`
(ModeEstimator.h 225–229). -/
def modeTieLater (best : Option ((K × UInt32) × UInt32)) (n i : UInt32) : Bool :=
  match best with
  | none => false
  | some (b, j) => decide (n = b.2) && decide (i > j)

/-- The loop of `ModeTrainingOnlyPolicy::complete_training` (ModeEstimator.h 208–234): the best entry so
far with its order index (`iterMode`, `modeIndex`). A value that is in the histogram but not in the order map
would be dereferenced at `end()` (`assert` only): undefined behaviour. `eligible` is
`IsSupportedModeEstimatorValue` (161–184): everything, or everything but null. -/
def modeLoop [DecidableEq K] (eligible : K → Bool) (order : UMap K UInt32) :
    List (K × UInt32) → Option ((K × UInt32) × UInt32) → Except Err (Option ((K × UInt32) × UInt32))
  | [], best => .ok best
  | e :: es, best =>
    if modeAtLeast best e.2 then
      if eligible e.1 = false then modeLoop eligible order es best
      else match order.find? e.1 with
        | none => .error .ub
        | some i =>
          if modeTieLater best e.2 i then
            modeLoop eligible order es best
          else modeLoop eligible order es (some (e, i))
    else modeLoop eligible order es best

/-- `ModeTrainingOnlyPolicy` (ModeEstimator.h 155–158, 187–241). -/
def modePolicy [DecidableEq K] (it : IterOrder K UInt32) (eligible : K → Bool) (col : Nat) :
    Policy Unit K (CatAnnot K) where
  begin _ s := (.ok true, s)
  fit _ s := (.error .runtimeError, s)
  complete maps s :=
    match getAnnotationData CatAnnot.isHistogram maps col "HistogramEstimator" with
    | .error e => (.error e, s)
    | .ok h =>
      match getAnnotationData CatAnnot.isOrder maps col "OrderEstimator" with
      | .error e => (.error e, s)
      | .ok o =>
        match h, o with
        | .histogram h, .order o =>
          if h.size = 0 ∨ o.size = 0 then (.error .runtimeError, s)
          else match modeLoop eligible o (it.order h.entries) none with
            | .error e => (.error e, s)
            | .ok none => (.error .runtimeError, s)
            | .ok (some (b, _)) => (.ok (.mode b.1), s)
        | _, _ => (.error .ub, s)

/-- `ModeEstimator` (ModeEstimator.h 144–146): `requiresTraining` is false. -/
def modeConfig (col : Nat) : TrainingOnlyConfig (CatAnnot K) :=
  ⟨col, "ModeEstimator", false, CatAnnot.isMode⟩

end Feat
