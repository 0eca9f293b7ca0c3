import Verif.Model.FloatArith
/-
Specification of categories of floating point numbers: a number is in the same category as the numbers equal to it, -0 as +0; a
NaN is not a number.
-/
namespace Feat.FloatCategories
open Feat.FloatArith
variable {T : Type} [FloType T]

/-- `ks` are the categories of the numbers in `data` in increasing order, each given by one of its numbers. -/
structure Categories (data ks : List T) : Prop where
  increasing : ks.Pairwise fun a b => lt a b = true
  occur : ∀ k ∈ ks, k ∈ data
  all : ∀ x ∈ data, isNaN x = false → ∃ k ∈ ks, eq k x = true

/-- `k` is the mode: of the categories with the most elements, the one seen first; `k` is the first number seen of it. -/
structure IsMode (data : List T) (k : T) : Prop where
  number : isNaN k = false
  first : data.find? (eq k) = some k
  most : ∀ y ∈ data, isNaN y = false → data.countP (eq y) ≤ data.countP (eq k)
  earliest : ∀ y ∈ data, isNaN y = false → data.countP (eq y) = data.countP (eq k) →
    data.findIdx (eq k) ≤ data.findIdx (eq y)

end Feat.FloatCategories
