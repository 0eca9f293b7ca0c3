import Verif.Model.TimeSeriesImputer
import Verif.Spec.Series
/-
Specification of C35 and C36: what imputing a time series means, one key at a time.
-/
namespace Feat
variable {K S : Type}

/-- The grid times `a + f, a + 2 f, …` before `b`, in order (see `mem_gridTimes`). -/
def gridTimes (f a b : Int) : List Int :=
  (List.range ((b - a - 1) / f).toNat).map fun n : Nat => a + ((n : Int) + 1) * f

/-- The rows generated between a row at time `a` and the row `x`: no values. -/
def gridRows (f a : Int) (x : TsIn K S) : List (TsRow K S) :=
  (gridTimes f a x.time).map fun t => ⟨true, t, x.key, List.replicate x.cells.length none⟩

/-- The series of one key with the gaps filled by rows without values. -/
def expand (f : Int) : List (TsIn K S) → List (TsRow K S)
  | [] => []
  | [x] => [x.row]
  | x :: y :: rest => x.row :: gridRows f x.time y ++ expand f (y :: rest)

/-- Column `c` of the rows. -/
def column (c : Nat) (rows : List (TsRow K S)) : List (Option S) := rows.map fun r => (r.cells[c]?).join

/-- `out` is the series `rows` with cells replaced: row by row the same flag, time, key and number of cells; the cell of
row `i` and column `c` is the value `v` exactly if `P c i v`, and null otherwise. -/
structure Filled (P : Nat → Nat → S → Prop) (rows out : List (TsRow K S)) : Prop where
  length : out.length = rows.length
  sameRow : ∀ (i : Nat) e r, rows[i]? = some e → out[i]? = some r →
    r.added = e.added ∧ r.time = e.time ∧ r.key = e.key ∧ r.cells.length = e.cells.length
  cell : ∀ (i c : Nat) v r, out[i]? = some r → (r.cells[c]? = some (some v) ↔ P c i v)

/-- The rows of one key. -/
def ofKey [DecidableEq K] (k : K) (xs : List (TsIn K S)) : List (TsIn K S) := xs.filter fun x => x.key == k

/-- The rows output for one key. -/
def outOfKey [DecidableEq K] (k : K) (xs : List (TsRow K S)) : List (TsRow K S) := xs.filter fun x => x.key == k

/-- A series the imputer can process: positive frequency; times (also one step beyond) are valid time points; the rows of
each key are in chronological order, have the same number of cells and the rows generated between two of them fit in
memory. -/
structure GoodSeries (f : Int) (space : Nat) (xs : List (TsIn K S)) : Prop where
  frequency : 0 < f
  times : ∀ x ∈ xs, -2 ^ 63 ≤ x.time ∧ x.time + f < 2 ^ 63
  chronological : xs.Pairwise fun x y => x.key = y.key → x.time ≤ y.time
  widths : ∀ x ∈ xs, ∀ y ∈ xs, x.key = y.key → x.cells.length = y.cells.length
  memory : ∀ x ∈ xs, ∀ y ∈ xs, x.key = y.key → (y.time - x.time) / f ≤ space

end Feat
