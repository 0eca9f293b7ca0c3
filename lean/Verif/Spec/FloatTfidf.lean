import Verif.Spec.Tfidf
import Verif.Spec.FloatScalers
/-
How near the computed weights of the tf-idf vectorizer are to the exact ones.
-/
namespace Feat.FloatTfidf
open Feat.FloatText

/-- `x` is `y` up to a relative error of `ε`. -/
def Rel (ε x y : ℝ) : Prop := |x - y| ≤ ε * y

/-- What is assumed of the C library's `log`: for finite numbers from 1 on, a relative error of at most one unit in the last
place.  (glibc documents less than one unit.) -/
def LogAccurate (log : F64 → F64) : Prop :=
  ∀ x : F64, Finite x → 1 ≤ value x →
    Finite (log x) ∧ Rel (1 / 2 ^ 52) (value (log x) : ℝ) (Real.log (value x : ℝ))

end Feat.FloatTfidf
