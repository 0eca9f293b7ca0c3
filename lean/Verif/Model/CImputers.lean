import Verif.Model.CPipelines
import Verif.Model.FloatStats
import Verif.Model.FloatMedian
/-
Mean and median imputer, behind the C interface.
-/
namespace Feat.CApi

/-- The median imputer behind the C interface, in a process with this byte order and address space: annotations for one column,
column 0, at most 2^64 - 1 training items, results of type `double` (SharedLibrary_MedianImputerFeaturizer.cpp 41–63, 341–370 for
`int8_t`, and likewise for the other numbers; MedianImputerFeaturizer.h 26–146; Components/ImputerTransformer.h 81–144).  `get` is
`FloatStats.floGet` for `float` and `double`, else `FloatStats.intGet`; `bool` and strings are not modelled here.  `V` is the type of the values in the
annotations of other estimators on the column, of which there are none. -/
def medianImputerIn {ι : Type} (V : Type) (get : ι → Option F64) (X : Xf F64 ι ι) (host : Endian) (space : Nat) (place : List UInt8 → Nat) :=
  pipelineIn (σ := fun _ => Heaps Int) (O := F64) (imputer F64).ar X (Xf.ofFun fun (t : F64) x => .ok (FloatMedian.execMedian get t x))
    (fun _ => FloatMedian.medianComponent (V := V) (S := F64) get 0 (2 ^ 64 - 1)) 1 (FloatMedian.makeMedian 0) [[]] host space place

/-- The mean imputer behind the C interface, in a process with this byte order and address space: annotations for one column,
column 0, at most 2^64 - 1 training items (SharedLibrary_MeanImputerFeaturizer.cpp 41–63, 341–370 for `int8_t`, and likewise for the
other types; MeanImputerFeaturizer.h 26–150; Components/ImputerTransformer.h 81–144).  `k` is the input type. -/
def meanImputerIn {ι V S : Type} (k : FloatStats.StatInput ι V S) (X : Xf F64 ι ι) (host : Endian) (space : Nat)
    (place : List UInt8 → Nat) :=
  pipelineIn (σ := fun _ => FloatStats.StatState V S) (α := FloatStats.FloAnnot V S) (O := F64) (imputer F64).ar X (Xf.ofFun fun (t : F64) x => .ok (FloatStats.execMean k t x))
    (fun _ => FloatStats.statComponent k 0 (2 ^ 64 - 1)) 1 (FloatStats.makeMean 0) [[]] host space place

end Feat.CApi
