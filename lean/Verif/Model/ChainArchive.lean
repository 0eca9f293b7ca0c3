import Verif.Model.Transformers
/-
Saving and loading of pipelines (Components/Details/PipelineExecutionEstimatorImpl_details.h, "Details").
-/
namespace Feat

/-- The archive side of any class of transformers: `save` and the archive constructor.  Arbitrary. -/
structure ArClass : Type 1 where
  Obj : Type
  save : Obj → M Archive Unit
  load : M Archive Obj

/-- The archive side of the transformers of `Model/Transformers`. -/
def TClass.ar (c : TClass) : ArClass := ⟨c.Obj, c.save, c.load⟩

/-- The objects of a chain: one transformer per estimator that is a `TransformerEstimator` (`some`), none
for the others. -/
def ChainObj : List (Option ArClass) → Type
  | [] => Unit
  | none :: cs => ChainObj cs
  | some c :: cs => c.Obj × ChainObj cs

/-- `TransformerChainElement::save` (Details 827–828, 869–871, 947–949, 1015–1018): the *following* elements
first, then this one. -/
def chainSave : (cs : List (Option ArClass)) → ChainObj cs → M Archive Unit
  | [], _ => pure ()
  | none :: cs, t => chainSave cs t
  | some c :: cs, t => chainSave cs t.2 >>= fun _ => c.save t.1

/-- `TransformerChainElement(Archive &)` (Details 820–821, 865–867, 939–941, 1005–1008): the base class, i.e.
the following elements, is constructed first. -/
def chainLoad : (cs : List (Option ArClass)) → M Archive (ChainObj cs)
  | [] => pure ()
  | none :: cs => chainLoad cs
  | some c :: cs => chainLoad cs >>= fun r => c.load >>= fun t => pure (t, r)

/-- `PipelineExecutionTransformer` (PipelineExecutionEstimatorImpl.h 254–266). -/
def pipelineAr (cs : List (Option ArClass)) : ArClass := ⟨ChainObj cs, chainSave cs, chainLoad cs⟩

/-- `FilterTransformer` (FilterFeaturizerImpl.h 395–413) only forwards to the wrapped transformer. -/
def filterAr (c : ArClass) : ArClass := ⟨c.Obj, c.save, c.load⟩

end Feat
