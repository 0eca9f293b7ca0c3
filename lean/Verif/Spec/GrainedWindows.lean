import Verif.Model.GrainedWindows
import Verif.Spec.Codec
import Verif.Spec.Grain
/-
Specification for C101: the life of a transformer that is flushed, saved and loaded.
-/
namespace Feat
variable {G I O K A B : Type}

/-- Saving with `save` gives bytes from which `load` makes `g'`, on every machine and at every address (`load` takes the
address of the copy it keeps). -/
def ReloadsTo (save : M Archive Unit) (load : Nat → M Archive G) (g' : G) : Prop :=
  ∃ bs, Writes save bs ∧ ∀ h space base base', Roomy space base bs.length → Roomy space base' bs.length →
    (load base' (.rd h space base bs 0)).1 = .ok g'

/-- How a stretch of rows ends: the transformer is flushed, or it is saved and the life goes on with the loaded one. -/
inductive Close where
  | flush
  | reload
  deriving DecidableEq

/-- The life of a transformer: stretches of rows, each with the way it ends, and the outputs of each stretch (with those
of the flush).  No call throws. -/
inductive Lives (X : Xf G I O) (save : G → M Archive Unit) (load : Nat → M Archive G) :
    G → List (List I × Close) → List (List O) → Prop where
  | nil (g : G) : Lives X save load g [] []
  | flush (g g' : G) (xs : List I) (outs : List O) (rest : List (List I × Close)) (os : List (List O))
      (run : X.runAll g xs = ⟨outs, none, g'⟩) (go : Lives X save load g' rest os) :
      Lives X save load g ((xs, .flush) :: rest) (outs :: os)
  | reload (g g' g'' : G) (xs : List I) (outs : List O) (rest : List (List I × Close)) (os : List (List O))
      (run : X.execAll g xs = ⟨outs, none, g'⟩) (again : ReloadsTo (save g') load g'')
      (go : Lives X save load g'' rest os) :
      Lives X save load g ((xs, .reload) :: rest) (outs :: os)

/-- The last `n` elements. -/
def latest (n : Nat) (l : List A) : List A := l.drop (l.length - n)

/-- The outputs of a grained rolling window: one per row, in the order of the rows.  For the row `i` of the grain `k`, with
`own` the rows of this grain up to this one, column `j` is null when fewer than `minW` rows of `own` are left without the
last `H - j`, and otherwise the aggregate of the at most `W` latest of these. -/
structure GrainedRolling [DecidableEq K] (Agg : List A → B → Prop) (H W minW : Nat) (rows : List (K × A))
    (outs : List (List (Option B))) : Prop where
  length : outs.length = rows.length
  row : ∀ i k x, rows[i]? = some (k, x) → ∃ row, outs[i]? = some row ∧ row.length = H ∧ ∀ j < H,
    let own := ofGrain k (rows.take (i + 1))
    (own.length < (H - j) + minW → row[j]? = some none) ∧
    ((H - j) + minW ≤ own.length →
      ∃ v, Agg (latest W (own.take (own.length - (H - j)))) v ∧ row[j]? = some (some v))

end Feat
