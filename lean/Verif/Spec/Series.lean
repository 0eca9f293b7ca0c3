/-
Specification of filling the nulls of a series (C32, C33, C36) and of the distances of times (C25, C63).
-/
namespace Feat
variable {S : Type}

/-- `v` is the latest non-null value of the series up to and including row `i`, or the default value if there is
none. -/
def LatestValue (default : Option S) (xs : List (Option S)) (i : Nat) (v : S) : Prop :=
  (∃ j ≤ i, xs[j]? = some (some v) ∧ ∀ k, j < k → k ≤ i → xs[k]? = some none) ∨
  ((∀ k ≤ i, xs[k]? = some none) ∧ default = some v)

/-- `v` is the next non-null value of the series from row `i` on, or the default value if all rows from `i` on are
null. -/
def NextValue (default : Option S) (xs : List (Option S)) (i : Nat) (v : S) : Prop :=
  (∃ j, i ≤ j ∧ xs[j]? = some (some v) ∧ ∀ k, i ≤ k → k < j → xs[k]? = some none) ∨
  (i < xs.length ∧ (∀ k, i ≤ k → k < xs.length → xs[k]? = some none) ∧ default = some v)

/-- The differences of consecutive elements. -/
def gaps : List Int → List Int
  | a :: b :: rest => (b - a) :: gaps (b :: rest)
  | _ => []

/-- The times of one grain, in order. -/
def timesOf {K : Type} [DecidableEq K] (rows : List (Int × K)) (g : K) : List Int :=
  rows.filterMap fun r => if r.2 = g then some r.1 else none

end Feat
