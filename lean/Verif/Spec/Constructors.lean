import Verif.Model.Transformers
/-
Specification for C102: what the constructors of transformers accept.
-/
namespace Feat

/-- The constructor succeeds on the parameters with `P`, and throws `e` on all others. -/
def Checks (c : TClass) (P : c.Params → Prop) (e : Err) : Prop :=
  ∀ p, (P p → ∃ t, c.make p = .ok t) ∧ (¬ P p → c.make p = .error e)

/-- The numbers of the type ids (Traits.h 98–131). -/
def typeIds : List Nat :=
  [1, 2, 3, 4, 5, 6, 7, 8, 9, 10, 11, 12, 13, 14, 15, 16, 17, 18,
   0x10010014, 0x10010015, 0x10010016, 0x10010017, 0x10010018, 0x10020019]

end Feat
