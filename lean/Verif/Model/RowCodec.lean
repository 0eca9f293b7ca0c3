import Verif.Model.DateText
import Verif.Model.TimeSeriesImputer
import Verif.Model.Transformers
/-
Model of SharedLibrary_TimeSeriesImputerFeaturizer.cpp: the rows that the C interface of the time series imputer reads and
writes, and the functions `Transform`, `Flush`, `DestroyTransformedData` and the saving of a transformer (the table of
handles and the error records are in Model/CApi and Model/PointerTable).

The clock is that of libstdc++ (nanoseconds).  The text conversions of floating point numbers are parameters here
(Model/FloatText defines them).
-/
namespace Feat.RowCodec
open Feat.DateText

/-- Ticks of the system clock per second (libstdc++). -/
def perSec : Nat := 1000000000

/-- Ticks of the system clock per microsecond (libstdc++). -/
def perMicro : Nat := 1000

/-- `Traits<std::chrono::system_clock::time_point>`: `ToString` and `FromString` (Traits.h 1401–1454). -/
instance : TextTraits (TimePoint perSec) where
  toText := toIso perSec
  fromText := fromIso perSec 9

/-- `Traits<std::chrono::system_clock::duration>`: `ToString` and `FromString` (Traits.h 1295–1308): the number of ticks and
their unit "ns"; there is no conversion from text. -/
instance : TextTraits (Duration perMicro) where
  toText d := intText d.ticks.toInt ++ [110, 115]
  fromText _ := .error .logicError

/-! ### Nullable types -/

/-- `std::isnan`: all bits of the exponent are set, and some bit of the fraction. -/
def isNaN32 (x : F32) : Bool := decide (0x7F800000 < x.bits.toNat % 2 ^ 31)

/-- `std::isnan`. -/
def isNaN64 (x : F64) : Bool := decide (0x7FF0000000000000 < x.bits.toNat % 2 ^ 63)

/-- `Traits<T>::nullable_type` with `IsNull`, `GetNullableValue` and `CreateNullValue` (Traits.h 171–194). -/
class Nullable (T : Type) where
  N : Type
  traits : Traits N
  get : N → Option T
  null : N
  put : T → N

/-- `TraitsImpl` (Traits.h 323–342): `nonstd::optional<T>`. -/
instance (priority := low) optionNullable {T : Type} [Traits T] : Nullable T where
  N := Option T
  traits := inferInstance
  get := id
  null := none
  put := some

/-- `Traits<std::float_t>` (Traits.h 668–716): the quiet NaN is the null value, every NaN is null. -/
instance floatNullable : Nullable F32 where
  N := F32
  traits := inferInstance
  get x := if isNaN32 x then none else some x
  null := ⟨0x7FC00000⟩
  put := id

/-- `Traits<std::double_t>` (Traits.h 746–794). -/
instance doubleNullable : Nullable F64 where
  N := F64
  traits := inferInstance
  get x := if isNaN64 x then none else some x
  null := ⟨0x7FF8000000000000⟩
  put := id

/-! ### One column -/

/-- `Traits<T>::ToString(Traits<T>::deserialize(ar))`. -/
def keyOf (T : Type) [Traits T] [TextTraits T] : M Archive Str := do
  let x ← (Traits.deserialize : M Archive T)
  pure ⟨TextTraits.toText x⟩

/-- `Traits<T>::serialize(ar, Traits<T>::FromString(s))`. -/
def keyTo (T : Type) [Traits T] [TextTraits T] (s : Str) : M Archive Unit :=
  match (TextTraits.fromText s.chars : Except Err T) with
  | .ok x => Traits.serialize x
  | .error e => M.throw e

/-- `_LoadDataString<T>` (SharedLibrary_TimeSeriesImputerFeaturizer.cpp 876–886). -/
def dataOf (T : Type) [Nullable T] [TextTraits T] : M Archive (Option Str) := do
  let v ← ((Nullable.traits (T := T)).deserialize : M Archive (Nullable.N T))
  pure ((Nullable.get v).map fun x => ⟨TextTraits.toText x⟩)

/-- `_SaveDataString<T>` (SharedLibrary_TimeSeriesImputerFeaturizer.cpp 1002–1018). -/
def dataTo (T : Type) [Nullable T] [TextTraits T] (s : Option Str) : M Archive Unit :=
  match s with
  | none => (Nullable.traits (T := T)).serialize Nullable.null
  | some s =>
    match (TextTraits.fromText s.chars : Except Err T) with
    | .ok x => (Nullable.traits (T := T)).serialize (Nullable.put x)
    | .error e => M.throw e

section
variable [TextTraits F32] [TextTraits F64]

/-- One step of `_LoadKeyStrings` (SharedLibrary_TimeSeriesImputerFeaturizer.cpp 826–871).  The type is its underlying
number (Traits.h 94–132). -/
def loadKey (id : UInt32) : M Archive Str :=
  match id.toNat with
  | 1 => keyOf Str
  | 2 => keyOf Int8
  | 3 => keyOf Int16
  | 4 => keyOf Int32
  | 5 => keyOf Int64
  | 6 => keyOf UInt8
  | 7 => keyOf UInt16
  | 8 => keyOf UInt32
  | 9 => keyOf UInt64
  | 11 => keyOf F32
  | 12 => keyOf F64
  | 16 => keyOf Bool
  | 17 => keyOf (TimePoint perSec)
  | 18 => keyOf (Duration perMicro)
  | _ => M.throw .runtimeError

/-- One step of `_SaveKeyStrings` (SharedLibrary_TimeSeriesImputerFeaturizer.cpp 952–999). -/
def saveKey (id : UInt32) (s : Str) : M Archive Unit :=
  match id.toNat with
  | 1 => keyTo Str s
  | 2 => keyTo Int8 s
  | 3 => keyTo Int16 s
  | 4 => keyTo Int32 s
  | 5 => keyTo Int64 s
  | 6 => keyTo UInt8 s
  | 7 => keyTo UInt16 s
  | 8 => keyTo UInt32 s
  | 9 => keyTo UInt64 s
  | 11 => keyTo F32 s
  | 12 => keyTo F64 s
  | 16 => keyTo Bool s
  | 17 => keyTo (TimePoint perSec) s
  | 18 => keyTo (Duration perMicro) s
  | _ => M.throw .runtimeError

/-- One step of `_LoadDataStrings` (SharedLibrary_TimeSeriesImputerFeaturizer.cpp 893–938). -/
def loadData (id : UInt32) : M Archive (Option Str) :=
  match id.toNat with
  | 1 => dataOf Str
  | 2 => dataOf Int8
  | 3 => dataOf Int16
  | 4 => dataOf Int32
  | 5 => dataOf Int64
  | 6 => dataOf UInt8
  | 7 => dataOf UInt16
  | 8 => dataOf UInt32
  | 9 => dataOf UInt64
  | 11 => dataOf F32
  | 12 => dataOf F64
  | 16 => dataOf Bool
  | 17 => dataOf (TimePoint perSec)
  | 18 => dataOf (Duration perMicro)
  | _ => M.throw .runtimeError

/-- One step of `_SaveDataStrings` (SharedLibrary_TimeSeriesImputerFeaturizer.cpp 1025–1072). -/
def saveData (id : UInt32) (s : Option Str) : M Archive Unit :=
  match id.toNat with
  | 1 => dataTo Str s
  | 2 => dataTo Int8 s
  | 3 => dataTo Int16 s
  | 4 => dataTo Int32 s
  | 5 => dataTo Int64 s
  | 6 => dataTo UInt8 s
  | 7 => dataTo UInt16 s
  | 8 => dataTo UInt32 s
  | 9 => dataTo UInt64 s
  | 11 => dataTo F32 s
  | 12 => dataTo F64 s
  | 16 => dataTo Bool s
  | 17 => dataTo (TimePoint perSec) s
  | 18 => dataTo (Duration perMicro) s
  | _ => M.throw .runtimeError

/-! ### Rows -/

/-- `_LoadKeyStrings` (SharedLibrary_TimeSeriesImputerFeaturizer.cpp 817–874). -/
def loadKeys : List UInt32 → M Archive (List Str)
  | [] => pure []
  | id :: ids => do
    let s ← loadKey id
    let ss ← loadKeys ids
    pure (s :: ss)

/-- `_LoadDataStrings` (SharedLibrary_TimeSeriesImputerFeaturizer.cpp 888–941). -/
def loadDatas : List UInt32 → M Archive (List (Option Str))
  | [] => pure []
  | id :: ids => do
    let s ← loadData id
    let ss ← loadDatas ids
    pure (s :: ss)

/-- `_SaveKeyStrings` (SharedLibrary_TimeSeriesImputerFeaturizer.cpp 943–1000): the iterator over the types is advanced
along with the texts; reading beyond the types is undefined. -/
def saveKeys : List UInt32 → List Str → M Archive Unit
  | _, [] => pure ()
  | [], _ :: _ => M.throw .ub
  | id :: ids, s :: ss => do
    saveKey id s
    saveKeys ids ss

/-- `_SaveDataStrings` (SharedLibrary_TimeSeriesImputerFeaturizer.cpp 1020–1073). -/
def saveDatas : List UInt32 → List (Option Str) → M Archive Unit
  | _, [] => pure ()
  | [], _ :: _ => M.throw .ub
  | id :: ids, s :: ss => do
    saveData id s
    saveDatas ids ss

/-- `Serializer`: `KeyTypes` and `DataTypes`. -/
structure Serializer where
  keys : List UInt32
  datas : List UInt32
  deriving DecidableEq, Repr

/-- `ValidateTypes` (SharedLibrary_TimeSeriesImputerFeaturizer.cpp 800–810). -/
def validateTypes (ids : List UInt32) : Except Err (List UInt32) :=
  if ids = [] then .error .invalidArgument
  else if ids.any (fun id => !validTypeId id) then .error .invalidArgument
  else .ok ids

/-- The constructor of `Serializer` (SharedLibrary_TimeSeriesImputerFeaturizer.cpp 812–815). -/
def Serializer.make (keys datas : List UInt32) : Except Err Serializer :=
  match validateTypes keys with
  | .error e => .error e
  | .ok keys =>
    match validateTypes datas with
    | .error e => .error e
    | .ok datas => .ok ⟨keys, datas⟩

/-- `Serializer::Serializer(Archive &)` (SharedLibrary_TimeSeriesImputerFeaturizer.cpp 643–673). -/
def Serializer.load : M Archive Serializer := do
  let keys ← (Traits.deserialize : M Archive (List UInt32))
  let datas ← (Traits.deserialize : M Archive (List UInt32))
  liftExcept (Serializer.make keys datas)

/-- `Serializer::save` (SharedLibrary_TimeSeriesImputerFeaturizer.cpp 675–698). -/
def Serializer.save (s : Serializer) : M Archive Unit := do
  Traits.serialize s.keys
  Traits.serialize s.datas

/-- `Serializer::Deserialize` (SharedLibrary_TimeSeriesImputerFeaturizer.cpp 700–710), after the archive has been made from
the buffer. -/
def Serializer.readRow (s : Serializer) : M Archive (TsIn (List Str) Str) := do
  let tp ← (Traits.deserialize : M Archive (TimePoint perSec))
  let keys ← loadKeys s.keys
  let datas ← loadDatas s.datas
  pure ⟨tp.ticks.toInt, keys, datas⟩

/-- The body of the first loop of `Serializer::Serialize` (SharedLibrary_TimeSeriesImputerFeaturizer.cpp 740–746). -/
def Serializer.writeRow (s : Serializer) (r : TsRow (List Str) Str) : M Archive Unit := do
  Traits.serialize r.added
  Traits.serialize (⟨Int64.ofInt r.time⟩ : TimePoint perSec)
  saveKeys s.keys r.key
  saveDatas s.datas r.cells

/-- The first loop of `Serializer::Serialize` (SharedLibrary_TimeSeriesImputerFeaturizer.cpp 740–753): a buffer for every
row; the ones made so far are released when one throws. -/
def Serializer.writeRows (s : Serializer) (host : Endian) (space : Nat) :
    List (TsRow (List Str) Str) → Except Err (List (List UInt8))
  | [] => .ok []
  | r :: rs =>
    match s.writeRow r (Archive.mkWriter host space) with
    | (.error e, _) => .error e
    | (.ok _, a) =>
      match s.writeRows host space rs with
      | .error e => .error e
      | .ok bs => .ok (a.buf :: bs)

/-- `Serializer::Serialize` (SharedLibrary_TimeSeriesImputerFeaturizer.cpp 712–774): `none` is a null pointer with length 0. -/
def Serializer.serialize (s : Serializer) (host : Endian) (space : Nat) (rows : List (TsRow (List Str) Str)) :
    Except Err (Option (List (List UInt8))) :=
  if rows = [] then .ok none
  else
    match s.writeRows host space rows with
    | .error e => .error e
    | .ok bs => .ok (some bs)

/-! ### The functions of the interface -/

/-- A `BinaryArchiveData`: null, or an address and the bytes there. -/
abbrev Buffer := Option (Nat × List UInt8)

/-- The checks on `data` and `Serializer::Deserialize` in `Transform` and `Fit`
(SharedLibrary_TimeSeriesImputerFeaturizer.cpp 260–261, 557–558, 700–710). -/
def Serializer.readBuffer (s : Serializer) (host : Endian) (space : Nat) (b : Buffer) : Except Err (TsIn (List Str) Str) :=
  match b with
  | none => .error .invalidArgument
  | some (base, bytes) =>
    if bytes.length = 0 then .error .invalidArgument
    else (s.readRow (Archive.mkReader host space base bytes)).1

/-- `TransformerMemory`: the row serializer and the transformer, with its parameters and its state. -/
structure Memory where
  serializer : Serializer
  config : TsConfig (List Str) Str
  state : TsImputer (List Str) Str

/-- `TimeSeriesImputerFeaturizer_BinaryArchive_Transform` (SharedLibrary_TimeSeriesImputerFeaturizer.cpp 549–580), on the
object behind the handle; the pointers for the results are not null. -/
def Memory.transform (host : Endian) (space : Nat) (b : Buffer) : Op Memory (Option (List (List UInt8))) := fun m =>
  match m.serializer.readBuffer host space b with
  | .error e => (.error e, m)
  | .ok x =>
    let r := (tsImputerXf m.config).exec m.state x
    match r.err with
    | some e => (.error e, { m with state := r.next })
    | none => (m.serializer.serialize host space r.outs, { m with state := r.next })

/-- `TimeSeriesImputerFeaturizer_BinaryArchive_Flush` (SharedLibrary_TimeSeriesImputerFeaturizer.cpp 582–615): the flush is
commented out. -/
def Memory.flush : Op Memory (Option (List (List UInt8))) := fun m => (.ok none, m)

/-- A sequence of `Transform` calls. -/
def Memory.transformAll (host : Endian) (space : Nat) :
    List Buffer → Memory → List (Except Err (Option (List (List UInt8)))) × Memory
  | [], m => ([], m)
  | b :: bs, m =>
    let r := m.transform host space b
    let rest := Memory.transformAll host space bs r.2
    (r.1 :: rest.1, rest.2)

end

/-! ### Results are released -/

/-- What `DestroySerializedData` has released: the row buffers (by name) and the array itself. -/
structure Freed where
  buffers : List Nat
  array : Bool
  deriving DecidableEq, Repr

/-- The loop of `DestroySerializedData` (SharedLibrary_TimeSeriesImputerFeaturizer.cpp 786–792): every element is checked,
then released. -/
def destroyLoop : List (Option Nat × Nat) → Except Err Unit × List Nat
  | [] => (.ok (), [])
  | (none, _) :: _ => (.error .invalidArgument, [])
  | (some b, n) :: rest =>
    if n = 0 then (.error .invalidArgument, [])
    else
      let r := destroyLoop rest
      (r.1, b :: r.2)

/-- `Serializer::DestroySerializedData` (SharedLibrary_TimeSeriesImputerFeaturizer.cpp 777–795): the array (null, or its
elements) and the announced number of elements, which may be smaller than what the array holds; a larger one is undefined. -/
def destroyData (p : Option (List (Option Nat × Nat))) (n : Nat) : Except Err Unit × Freed :=
  match p with
  | none => if n ≠ 0 then (.error .invalidArgument, ⟨[], false⟩) else (.ok (), ⟨[], false⟩)
  | some es =>
    if n = 0 then (.error .invalidArgument, ⟨[], false⟩)
    else if es.length < n then (.error .ub, ⟨[], false⟩)
    else
      match destroyLoop (es.take n) with
      | (.error e, freed) => (.error e, ⟨freed, false⟩)
      | (.ok _, freed) => (.ok (), ⟨freed, true⟩)

/-! ### Saving -/

/-- The parameters of the saved transformer (Model/Transformers). -/
abbrev SavedImputer := (timeSeriesImputer perMicro).Obj

/-- `TransformerMemory::save` (SharedLibrary_TimeSeriesImputerFeaturizer.cpp 1107–1112). -/
def saveMemory (s : Serializer) (t : SavedImputer) : M Archive Unit := do
  s.save
  (timeSeriesImputer perMicro).save t

/-- `TransformerMemory::TransformerMemory(Archive &)` (SharedLibrary_TimeSeriesImputerFeaturizer.cpp 1102–1105). -/
def loadMemory : M Archive (Serializer × SavedImputer) := do
  let s ← Serializer.load
  let t ← (timeSeriesImputer perMicro).load
  pure (s, t)

end Feat.RowCodec
