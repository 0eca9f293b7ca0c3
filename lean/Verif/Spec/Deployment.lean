import Verif.Spec.Clients
import Verif.Spec.Codec
/-
Training in one process and answering in another, through the C interface.
-/
namespace Feat.CApi
variable {σ ι τ O : Type}

/-- One process, `F`, creates an estimator after an arbitrary history, trains it with the standard loop on the batches `bs`, creates
a transformer, asks it the questions `qs₁` and gets the answers `as₁`, and saves it.  Another process, `F'`, loads the bytes, with
other bytes behind them, after an arbitrary history, asks the loaded transformer the questions `qs₂` and gets the answers `as₂`.
All the calls on these handles up to there succeed, except perhaps Transform and Flush; in both processes, other handles may be used in
between in any way, with success or not.  `room` says that the buffer lies in the address space. -/
inductive Deployment (F F' : Featurizer σ ι τ O) (room : List UInt8 → Prop) (bs : List (List ι)) :
    (qs₁ : List (Ask ι)) → (as₁ : List (Option (List O))) → (qs₂ : List (Ask ι)) → (as₂ : List (Option (List O))) → Prop
  | mk {es₀ es₁ es₂ fs₀ fs₁ : List (Request ι × Reply O)} {w₀ w₁ w₂ w₃ w₄ w₅ v₀ v₁ v₂ : World σ τ} {l₁ l₂ l₃ l₄ : Luck} {h k j : Nat}
      {bytes behind : List UInt8}
      (h₀ : History F es₀ w₀) (hl₁ : l₁.Ok w₀)
      (hc : serve F (.call (.createEstimator true) true) l₁ w₀ = (.returned true (.handle h) none, w₁))
      (s₁ : Session F w₁ es₁ w₂) (hd₁ : ∀ e ∈ es₁, e.1 ≠ .call (.destroyEstimator h) true) (hs : TrainsWith bs (sights h es₁))
      (hl₂ : l₂.Ok w₂)
      (ht : serve F (.call (.createTransformer h true) true) l₂ w₂ = (.returned true (.handle k) none, w₃))
      (s₂ : Session F w₃ es₂ w₄) (hd₂ : ∀ e ∈ es₂, e.1 ≠ .call (.destroyTransformer k) true) (hl₃ : l₃.Ok w₄)
      (hsave : serve F (.call (.save k true) true) l₃ w₄ = (.returned true (.bytes bytes) none, w₅))
      (g₀ : History F' fs₀ v₀) (hl₄ : l₄.Ok v₀) (hroom : room (bytes ++ behind))
      (hload : serve F' (.call (.loadTransformer (some (bytes ++ behind)) true) true) l₄ v₀ = (.returned true (.handle j) none, v₁))
      (s₃ : Session F' v₁ fs₁ v₂) (hd₃ : ∀ e ∈ fs₁, e.1 ≠ .call (.destroyTransformer j) true) :
      Deployment F F' room bs (questions k es₂) (answers k es₂) (questions j fs₁) (answers j fs₁)

/-- The answers of a transformer that gives `f x` for every row `x` and nothing when it is flushed. -/
def repliesOf (f : ι → Option (List O)) (qs : List (Ask ι)) : List (Option (List O)) :=
  qs.map fun
    | .row x => f x
    | .flush => some []

end Feat.CApi
