import Verif.Model.FloatTimeSeries
import Verif.Model.RowCodec
/-
Model of the estimator side of SharedLibrary_TimeSeriesImputerFeaturizer.cpp: creating an estimator, training it on rows that
come as byte buffers, and creating the transformer (the table of handles and the error records are in Model/CApi and
Model/PointerTable).
-/
namespace Feat.RowCodec

/-- The rows of the estimator: texts. -/
abbrev TextRow := TsIn (List Str) Str

/-- The transformers that the estimator makes. -/
abbrev TextConfig := TsConfig (List Str) Str

/-- `TimeSeriesImputerEstimator`: a pipeline of two estimators and an estimator that makes the transformer
(TimeSeriesImputerFeaturizer.h 27–62; Model/TimeSeriesTraining). -/
abbrev ImputerEst := Est (List (Elem (TsState (List Str) F64) TextRow TextConfig) × TsState (List Str) F64)

/-- `EstimatorMemory` (SharedLibrary_TimeSeriesImputerFeaturizer.cpp 102–111). -/
structure EstMemory where
  serializer : Serializer
  estimator : ImputerEst

/-- `static_cast<TimeSeriesImputeStrategy>(strategy)` and `IsValid` (TimeSeriesImputerTransformer.h 19–33). -/
def strategyOf (code : UInt8) : Option TsStrategy :=
  match code.toNat with
  | 1 => some .forward
  | 2 => some .backward
  | 3 => some .median
  | 4 => some .interpolate
  | _ => none

/-- `Traits<double>::FromString` on the text of a cell (TimeSeriesMedianEstimator.h 161). -/
def parseCell (s : Str) : Except Err F64 := TextTraits.fromText s.chars

/-- `Traits<double>::ToString` (TimeSeriesImputerTransformer.h 509). -/
def cellText (x : F64) : Str := ⟨TextTraits.toText x⟩

/-- The element of a `BinaryArchiveData` array: an address with the memory there (or null), and the announced size. -/
abbrev RawBuffer := Option (Nat × List UInt8) × Nat

/-- `Serializer::Deserialize` (SharedLibrary_TimeSeriesImputerFeaturizer.cpp 700–710) without the checks of `Fit`. -/
def Serializer.readRaw (s : Serializer) (host : Endian) (space : Nat) (b : RawBuffer) : Except Err TextRow :=
  match Archive.mkReaderPtr host space b.1 b.2 with
  | .error e => .error e
  | .ok a => (s.readRow a).1

/-- The loop of `FitBuffer` (SharedLibrary_TimeSeriesImputerFeaturizer.cpp 294–303). -/
def Serializer.readAll (s : Serializer) (host : Endian) (space : Nat) : List RawBuffer → Except Err (List TextRow)
  | [] => .ok []
  | b :: bs =>
    match s.readRaw host space b with
    | .error e => .error e
    | .ok x =>
      match s.readAll host space bs with
      | .error e => .error e
      | .ok xs => .ok (x :: xs)

section
variable (X : Xf TextConfig TextRow TextRow)

/-- `TimeSeriesImputerFeaturizer_BinaryArchive_CreateEstimator` (SharedLibrary_TimeSeriesImputerFeaturizer.cpp 137–205): an
array is null or holds as many types as announced.  `X` is what the pipeline would call if an estimator followed the last one;
`space` is the number of generated rows that fit in memory.  If both constructors throw, which exception is reported depends on
the compiler (here: that of the serializer). -/
def createEstimator (space : Nat) (keys datas : Option (List UInt32)) (strategy : UInt8) (suppress : Option Bool) :
    Except Err EstMemory :=
  match keys with
  | none => .error .invalidArgument
  | some keys =>
    if keys.length = 0 then .error .invalidArgument
    else match datas with
      | none => .error .invalidArgument
      | some datas =>
        if datas.length = 0 then .error .invalidArgument
        else match strategyOf strategy with
          | none => .error .invalidArgument
          | some strategy =>
            match Serializer.make keys datas with
            | .error e => .error e
            | .ok s =>
              match newTsImputer parseCell cellText datas strategy (suppress.getD false) space
                  (List.replicate (2 + keys.length + datas.length) []) with
              | .error e => .error e
              | .ok e =>
                match Est.beginTraining (Pipeline.hooks X) e with
                | (.error x, _) => .error x
                | (.ok (), e) => .ok ⟨s, e⟩

/-- `TimeSeriesImputerFeaturizer_BinaryArchive_Fit` (SharedLibrary_TimeSeriesImputerFeaturizer.cpp 252–274), on the object
behind the handle; the pointers for the results are not null, here and below. -/
def EstMemory.fit (host : Endian) (space : Nat) (b : Buffer) : Op EstMemory FitResult := fun m =>
  match m.serializer.readBuffer host space b with
  | .error e => (.error e, m)
  | .ok x =>
    match Est.fit (Pipeline.hooks X) (some [x]) m.estimator with
    | (r, e) => (r, { m with estimator := e })

/-- `TimeSeriesImputerFeaturizer_BinaryArchive_FitBuffer` (SharedLibrary_TimeSeriesImputerFeaturizer.cpp 276–313): the array
is null or holds as many elements as announced; the elements are not checked. -/
def EstMemory.fitBuffer (host : Endian) (space : Nat) (p : Option (List RawBuffer)) : Op EstMemory FitResult := fun m =>
  match p with
  | none => (.error .invalidArgument, m)
  | some bs =>
    if bs.length = 0 then (.error .invalidArgument, m)
    else match m.serializer.readAll host space bs with
      | .error e => (.error e, m)
      | .ok xs =>
        match Est.fit (Pipeline.hooks X) (some xs) m.estimator with
        | (r, e) => (r, { m with estimator := e })

/-- `TimeSeriesImputerFeaturizer_BinaryArchive_OnDataCompleted` (SharedLibrary_TimeSeriesImputerFeaturizer.cpp 336–355). -/
def EstMemory.onDataCompleted : Op EstMemory Unit := fun m =>
  match Est.onDataCompleted (Pipeline.hooks X) m.estimator with
  | (r, e) => (r, { m with estimator := e })

/-- `TimeSeriesImputerFeaturizer_BinaryArchive_CompleteTraining` (SharedLibrary_TimeSeriesImputerFeaturizer.cpp 357–376). -/
def EstMemory.completeTraining : Op EstMemory Unit := fun m =>
  match Est.completeTraining (Pipeline.hooks X) m.estimator with
  | (r, e) => (r, { m with estimator := e })

/-- `TimeSeriesImputerFeaturizer_BinaryArchive_GetState` (SharedLibrary_TimeSeriesImputerFeaturizer.cpp 315–334). -/
def EstMemory.getState (m : EstMemory) : TrainingState := m.estimator.state

/-- `TimeSeriesImputerFeaturizer_BinaryArchive_IsTrainingComplete` (SharedLibrary_TimeSeriesImputerFeaturizer.cpp 230–250). -/
def EstMemory.isTrainingComplete (m : EstMemory) : Bool := decide (m.estimator.state ≠ .training)

/-- `TimeSeriesImputerFeaturizer_BinaryArchive_CreateTransformerFromEstimator`
(SharedLibrary_TimeSeriesImputerFeaturizer.cpp 378–409).  `std::move` of the serializer copies its members, which are
constants.  The pipeline holds exactly one transformer; anything else is undefined here. -/
def EstMemory.createTransformer : Op EstMemory Memory := fun m =>
  match Est.createTransformer (Pipeline.hooks X) m.estimator with
  | (.error x, e) => (.error x, { m with estimator := e })
  | (.ok ts, e) =>
    match ts.filterMap id with
    | [c] => (.ok ⟨m.serializer, c, .new⟩, { m with estimator := e })
    | _ => (.error .ub, { m with estimator := e })

end

end Feat.RowCodec
