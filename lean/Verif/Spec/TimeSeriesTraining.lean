import Mathlib.Algebra.BigOperators.Group.List.Basic
import Verif.Model.TimeSeriesTraining
import Verif.Spec.Components
import Verif.Spec.PipelineTraining
import Verif.Spec.Series
import Verif.Spec.TimeSeriesImputer
/-
Specification of C63: what training a time series imputer means.
-/
namespace Feat
variable {K S D : Type}

/-- The values of one column of the rows of one key, in order, without the null cells. -/
def keyValues [DecidableEq K] (val : S → D) (k : K) (i : Nat) (rows : List (TsIn K S)) : List D :=
  ((ofKey k rows).filterMap fun r => (r.cells[i]?).join).map val

/-- The arithmetic mean. -/
def mean [Field D] (l : List D) : D := l.sum / (l.length : D)

/-- The mean as it is computed: the values are added one by one, then the sum is divided. -/
def average [TsNum D] (l : List D) : D := TsNum.over (l.foldl TsNum.plus TsNum.zero) l.length

/-- The times of the rows of one key. -/
def timesOfKey [DecidableEq K] (k : K) (rows : List (TsIn K S)) : List Int :=
  timesOf (rows.map fun x => (x.time, x.key)) k

/-- Column `i` is of a floating point type. -/
def Averaged (types : List UInt32) (i : Nat) : Prop := ∃ ty, types[i]? = some ty ∧ supportsMedian ty = true

/-- Rows that the estimator may read: a type for every column; all rows of one key equally wide; times less than the
longest duration apart. -/
structure WellFormedRows (types : List UInt32) (rows : List (TsIn K S)) : Prop where
  columns : ∀ x ∈ rows, x.cells.length ≤ types.length
  widths : ∀ x ∈ rows, ∀ y ∈ rows, x.key = y.key → x.cells.length = y.cells.length
  span : ∀ x ∈ rows, ∀ y ∈ rows, y.time - x.time < 2 ^ 63 - 1

/-- Every text in a column of a floating point type is a number, `val`. -/
structure ReadableRows (parse : S → Except Err D) (val : S → D) (types : List UInt32) (rows : List (TsIn K S))
    extends WellFormedRows types rows : Prop where
  numbers : ∀ x ∈ rows, ∀ (i : Nat) v, x.cells[i]? = some (some v) → Averaged types i → parse v = .ok (val v)

/-- Rows from which a transformer can be made: some column; the times of every key strictly increase; some key has two
rows; every column of a floating point type has a value for every key. -/
structure Trainable [DecidableEq K] (val : S → D) (types : List UInt32) (rows : List (TsIn K S)) : Prop where
  columns : types ≠ []
  increasing : ∀ k, (timesOfKey k rows).Pairwise (· < ·)
  twoRows : ∃ k, gaps (timesOfKey k rows) ≠ []
  values : ∀ x ∈ rows, ∀ i, i < x.cells.length → Averaged types i → keyValues val x.key i rows ≠ []

/-- The transformer trained on the rows: its frequency is the smallest distance of consecutive rows of a key; its
replacement values are, for each key and column of a floating point type, the average of the values of the training rows
(0 in other columns); there are none for other keys. -/
structure TrainedOn [LinearOrder K] [TsNum D] (val : S → D) (text : D → S) (types : List UInt32)
    (rows : List (TsIn K S)) (c : TsConfig K S) : Prop where
  columns : c.types = types
  frequency_le : ∀ k, ∀ d ∈ gaps (timesOfKey k rows), c.frequency ≤ d
  frequency_mem : ∃ k, c.frequency ∈ gaps (timesOfKey k rows)
  unknown : ∀ k, (∀ x ∈ rows, x.key ≠ k) → c.medians.find? k = none
  known : ∀ x ∈ rows, ∃ l, c.medians.find? x.key = some l ∧ l.length = x.cells.length ∧
    ∀ i, i < x.cells.length →
      (Averaged types i → l[i]? = some (text (average (keyValues val x.key i rows)))) ∧
      (¬ Averaged types i → l[i]? = some (text TsNum.zero))

/-- Constructing the featurizer and training it with the standard training loop over the batches ends, for every
sufficiently large number of iterations, with the result `r`: an exception, or a pipeline transformer whose only
transformer is `c`.  (`X`: the pipeline only calls transformers that are followed by an estimator.) -/
def TsYields [LinearOrder K] [TsNum D] (X : Xf (TsConfig K S) (TsIn K S) (TsIn K S)) (parse : S → Except Err D)
    (text : D → S) (types : List UInt32) (strategy : TsStrategy) (suppress : Bool) (space : Nat)
    (maps : AnnotationMaps (TsAnnotation K D)) (batches : List (List (TsIn K S))) (r : Except Err (TsConfig K S)) :
    Prop :=
  ∃ e, newTsImputer parse text types strategy suppress space maps = .ok e ∧
    ∃ N, ∀ fuel, N ≤ fuel → ∃ e', trainAndCreate (Pipeline.hooks X) batches fuel e
      = some (r.map (fun c => [none, none, some c]), e')

end Feat
