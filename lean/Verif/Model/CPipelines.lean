import Verif.Model.CArchives
import Verif.Model.Transformers
import Verif.Model.Encoders
/-
The transformers behind the handles of featurizers that are pipelines.
-/
namespace Feat.CApi
variable {T ι O : Type}

/-- `PipelineExecutionEstimator::TransformerType` of a pipeline in which only one estimator makes a transformer: the others
only annotate and are skipped (Components/PipelineExecutionEstimatorImpl.h 21–116, 229; in general:
`Chain.xf`, Model/Pipeline).  `n` is the number of the others, which come first. -/
def onlyXf (n : Nat) (X : Xf T ι O) : Xf (List (Option T)) ι O where
  exec ts x := match ts.drop n with
    | [some t] => ⟨(X.exec t x).outs, (X.exec t x).err, List.replicate n none ++ [some (X.exec t x).next]⟩
    | _ => ⟨[], some .ub, ts⟩
  flush ts := match ts.drop n with
    | [some t] => ⟨(X.flush t).outs, (X.flush t).err, List.replicate n none ++ [some (X.flush t).next]⟩
    | _ => ⟨[], some .ub, ts⟩

/-- The featurizer behind the C interface of a pipeline of training-only components and one estimator at the end, which makes
transformers that `Y` runs.  (`X` would run them for estimators behind; there are none.  What `load` and `save` do is C61, C103.) -/
def pipelineC {σ : Nat → Type} {ι α T O : Type} (X : Xf T ι ι) (Y : Xf T ι O) (comps : (i : Nat) → Component (σ i) ι α) (n : Nat)
    (mk : AnnotationMaps α → Except Err T) (maps : AnnotationMaps α) (load : List UInt8 → Except Err (List (Option T)))
    (save : List (Option T) → Except Err (List UInt8)) :
    Featurizer (List (Elem (CompState α σ) ι T) × CompState α σ) ι (List (Option T)) O where
  new := .ok (newFeaturizer comps n mk maps).inner
  hooks := Pipeline.hooks X
  xf := onlyXf n Y
  load := load
  save := save

/-- The label encoder behind the C interface: `CreateEstimator` makes it with annotations for one column, column 0, no existing
values and the default limit of 2^64 - 1 training items (SharedLibrary_LabelEncoderFeaturizer.cpp 41–63, 332–361;
LabelEncoderFeaturizer.h 153, 253–266).  `it` is the order in which the standard library walks through the histogram. -/
def labelEncoderC {K : Type} [LinearOrder K] (X : Xf (Encoder K) K K) (it : IterOrder K UInt32) (allow : Bool)
    (load : List UInt8 → Except Err (List (Option (Encoder K)))) (save : List (Option (Encoder K)) → Except Err (List UInt8)) :=
  pipelineC X (Xf.ofFun labelEncode) (encoderComponents it 0 (2 ^ 64 - 1) UMap.empty) 2 (makeLabelEncoder 0 allow) [[]]
    load save

/-- Saving and loading `PipelineExecutionEstimator::TransformerType` when only the last estimator makes a transformer: only this
transformer is saved and loaded (Components/PipelineExecutionEstimatorImpl.h 254–266; Components/Details 827–1018; in general:
`pipelineAr`, Model/ChainArchive). -/
def onlyAr (n : Nat) (c : ArClass) : ArClass where
  Obj := List (Option c.Obj)
  save ts := match ts.drop n with
    | [some t] => c.save t
    | _ => fun a => (.error .ub, a)
  load := c.load >>= fun t => pure (List.replicate n none ++ [some t])

/-- Saving and loading a `LabelEncoderTransformer` (LabelEncoderFeaturizer.h 204–239; `labelEncoder`, Model/Transformers). -/
def encoderAr (K : Type) [DecidableEq K] [Traits K] [Fits K] : ArClass where
  Obj := Encoder K
  save t := (labelEncoder K).save (t.labels, t.allowMissing)
  load := (labelEncoder K).load >>= fun (p : UMap K UInt32 × Bool) => pure (⟨p.1, p.2⟩ : Encoder K)

/-- `pipelineC` in a process with this byte order and address space (`Featurizer.archiving`, Model/CArchives), for a class of
transformers that are archived as `c` says. -/
def pipelineIn {σ : Nat → Type} {ι α O : Type} (c : ArClass) (X : Xf c.Obj ι ι) (Y : Xf c.Obj ι O)
    (comps : (i : Nat) → Component (σ i) ι α) (n : Nat) (mk : AnnotationMaps α → Except Err c.Obj) (maps : AnnotationMaps α)
    (host : Endian) (space : Nat) (place : List UInt8 → Nat) :=
  pipelineC X Y comps n mk maps (apiLoad (onlyAr n c) host space place) (apiSave (onlyAr n c) host space)

/-- `labelEncoderC` in such a process. -/
def labelEncoderIn {K : Type} [LinearOrder K] [Traits K] [Fits K] (X : Xf (Encoder K) K K) (it : IterOrder K UInt32) (allow : Bool)
    (host : Endian) (space : Nat) (place : List UInt8 → Nat) :=
  labelEncoderC X it allow (apiLoad (onlyAr 2 (encoderAr K)) host space place) (apiSave (onlyAr 2 (encoderAr K)) host space)

end Feat.CApi
