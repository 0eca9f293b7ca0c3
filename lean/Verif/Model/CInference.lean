import Verif.Model.CArchives
import Verif.Model.Fills
import Verif.Model.Hash
import Verif.Model.Transformers
/-
Featurizers without training, behind the C interface.
-/
namespace Feat.CApi
variable {ι O : Type}

/-- An estimator that is never trained: `begin_training_impl` returns false, `fit_impl` throws, `complete_training_impl` does nothing,
`on_data_completed_impl` is the default one; `made` is what `create_transformer_impl` does
(Components/InferenceOnlyFeaturizerImpl.h 92–106, 157–171 and Featurizer.h 827–830; with their own copies of these functions
HashOneHotVectorizerFeaturizer.h 109–127, 200–215). -/
def inferenceHooks {T : Type} (made : Except Err T) : Hooks Unit ι T where
  begin s := (.ok false, s)
  fit _ s := (.error .runtimeError, s)
  onDataCompleted s := (.ok true, s)
  complete s := (.ok (), s)
  create s := (made.map some, s)

/-- A featurizer with such an estimator behind the C interface, in a process with this byte order and address space.
`CreateEstimator` calls `begin_training`, as in all generated files (SharedLibrary_ForwardFillImputerFeaturizer.cpp 41–63). -/
def inferenceIn (c : ArClass) (Y : Xf c.Obj ι O) (made : Except Err c.Obj) (host : Endian) (space : Nat) (place : List UInt8 → Nat) :
    Featurizer Unit ι c.Obj O where
  new := .ok ()
  hooks := inferenceHooks made
  xf := Y
  load := apiLoad c host space place
  save := apiSave c host space

/-- Saving and loading a `ForwardFillImputerTransformer` (ForwardFillImputerFeaturizer.h 165–229; `forwardFill`, Model/Transformers). -/
def forwardFillAr (A : Type) [Traits A] [Fits A] : ArClass where
  Obj := ForwardFill A
  save t := (forwardFill A).save (t.default, t.last)
  load := (forwardFill A).load >>= fun (p : Option A × Option A) => pure (⟨p.1, p.2⟩ : ForwardFill A)

/-- The forward fill imputer behind the C interface: the transformers are made without a default value
(SharedLibrary_ForwardFillImputerFeaturizer.cpp 41–63; Components/InferenceOnlyFeaturizerImpl.h 103–105; ForwardFillImputerFeaturizer.h 42). -/
def forwardFillIn (A : Type) [Traits A] [Fits A] (host : Endian) (space : Nat) (place : List UInt8 → Nat) :=
  inferenceIn (ι := Option A) (O := A) (forwardFillAr A) forwardFillXf (.ok (ForwardFill.new none)) host space place

/-- The null indicator of type `int8_t` behind the C interface (SharedLibrary_MissingDummiesFeaturizer.cpp 41–63;
MissingDummiesFeaturizer.h 63–65). -/
def missingDummiesIn (A : Type) (host : Endian) (space : Nat) (place : List UInt8 → Nat) :=
  inferenceIn (ι := Option A) (O := Int) inferenceOnly.ar missingDummiesXf (.ok ()) host space place

/-- The null indicator of type `bool` behind the C interface (SharedLibrary_ImputationMarkerFeaturizer.cpp 41–63;
ImputationMarkerFeaturizer.h 48–51). -/
def imputationMarkerIn (A : Type) (host : Endian) (space : Nat) (place : List UInt8 → Nat) :=
  inferenceIn (ι := Option A) (O := Bool) inferenceOnly.ar imputationMarkerXf (.ok ()) host space place

/-- Saving and loading a `HashOneHotVectorizerTransformer` (HashOneHotVectorizerFeaturizer.h 149–185; `hashOneHot`, Model/Transformers). -/
def hashOneHotAr : ArClass where
  Obj := HashOneHot
  save t := hashOneHot.save (t.seed, t.numCols)
  load := hashOneHot.load >>= fun (p : UInt32 × UInt32) => pure (⟨p.1, p.2⟩ : HashOneHot)

/-- The hash encoder behind the C interface; the two numbers are given to `CreateEstimator`, and only looked at when the transformer
is made (SharedLibrary_HashOneHotVectorizerFeaturizer.cpp 41–63; HashOneHotVectorizerFeaturizer.h 120–127, 140–147).  `bytes` are
the bytes of a value that are hashed. -/
def hashOneHotIn (bytes : ι → List UInt8) (seed numCols : UInt32) (host : Endian) (space : Nat) (place : List UInt8 → Nat) :=
  inferenceIn (ι := ι) (O := SingleValue UInt8) hashOneHotAr (Xf.ofFun fun (t : HashOneHot) x => t.exec (bytes x))
    (HashOneHot.new seed numCols) host space place

end Feat.CApi
