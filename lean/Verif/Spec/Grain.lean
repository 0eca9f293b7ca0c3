import Verif.Model.Grain
/-
Specification of C37: the rows of one grain.
-/
namespace Feat
variable {K A : Type}

/-- The values belonging to the grain `k`, in order. -/
def ofGrain [DecidableEq K] (k : K) (xs : List (K × A)) : List A :=
  xs.filterMap fun x => if x.1 = k then some x.2 else none

theorem ofGrain_cons_self [DecidableEq K] (k : K) (a : A) (xs : List (K × A)) :
    ofGrain k ((k, a) :: xs) = a :: ofGrain k xs := by simp [ofGrain]

theorem ofGrain_cons_other [DecidableEq K] (k j : K) (h : j ≠ k) (a : A) (xs : List (K × A)) :
    ofGrain j ((k, a) :: xs) = ofGrain j xs := by simp [ofGrain, Ne.symm h]

theorem ofGrain_append [DecidableEq K] (k : K) (xs ys : List (K × A)) :
    ofGrain k (xs ++ ys) = ofGrain k xs ++ ofGrain k ys := by simp [ofGrain]

theorem ofGrain_map_self [DecidableEq K] (k : K) (l : List A) : ofGrain k (l.map fun o => (k, o)) = l := by
  induction l with
  | nil => rfl
  | cons a l ih => rw [List.map_cons, ofGrain_cons_self, ih]

theorem ofGrain_map_other [DecidableEq K] (k j : K) (h : j ≠ k) (l : List A) :
    ofGrain j (l.map fun o => (k, o)) = [] := by
  induction l with
  | nil => rfl
  | cons a l ih => rw [List.map_cons, ofGrain_cons_other k j h, ih]

end Feat
