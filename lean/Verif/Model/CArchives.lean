import Verif.Model.CApi
import Verif.Model.ChainArchive
/-
The archives behind the C interface.
-/
namespace Feat.CApi
variable {σ ι O : Type}

/-- `CreateTransformerFromSavedData` after its checks (SharedLibrary_CatImputerFeaturizer.cpp 270–272; the other generated
files repeat it): an archive over the caller's buffer and the archive constructor.  The buffer with the bytes `b` lies at
`place b`.  That bytes may be left over is not checked. -/
def apiLoad (c : ArClass) (host : Endian) (space : Nat) (place : List UInt8 → Nat) (b : List UInt8) : Except Err c.Obj :=
  match Archive.mkReaderPtr host space (some (place b, b)) b.length with
  | .error e => .error e
  | .ok a => (c.load a).1

/-- `CreateTransformerSaveData` after its checks (SharedLibrary_CatImputerFeaturizer.cpp 319–332): an empty archive, `save`,
`commit`, and a copy for the caller. -/
def apiSave (c : ArClass) (host : Endian) (space : Nat) (t : c.Obj) : Except Err (List UInt8) :=
  match c.save t (Archive.mkWriter host space) with
  | (.error e, _) => .error e
  | (.ok (), a) => (Archive.commit a).1

/-- A featurizer whose transformers are archived as `c` says, in a process with this byte order and address space, where
the allocator and the caller put buffers at `place`. -/
def Featurizer.archiving (c : ArClass) (F : Featurizer σ ι c.Obj O) (host : Endian) (space : Nat)
    (place : List UInt8 → Nat) : Featurizer σ ι c.Obj O :=
  { F with load := apiLoad c host space place, save := apiSave c host space }

end Feat.CApi
