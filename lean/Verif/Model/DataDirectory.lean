import Verif.Model.DateTime
import Verif.Model.Transformers
/-
The data directory of the date-time featurizer (DateTimeFeaturizer.cpp): directory streams and files, of which the operating
system lets a process have a limited number open.  The state is the number of open ones.
-/
namespace Feat.DataDirectory

/-- The file system as far as it is read.  `entries` are the names in a directory that are not directories themselves, in the
order of `readdir`, or `none` if the path is no directory that can be read; `json` is the table in a file, or `none` if it is
missing or not as expected; `limit` is how many streams can be open.  Paths are C strings. -/
structure FileSystem where
  entries : List UInt8 → Option (List (List UInt8))
  json : List UInt8 → Option (List (Int × Str))
  executable : List UInt8
  limit : Nat

variable (fs : FileSystem)

/-- `opendir`: `none` for the null pointer. -/
def opendir (path : List UInt8) : M Nat (Option (List (List UInt8))) := fun n =>
  if n < fs.limit then
    match fs.entries path with
    | some files => (.ok (some files), n + 1)
    | none => (.ok none, n)
  else (.ok none, n)

/-- `closedir`. -/
def closedir : M Nat Unit := fun n => (.ok (), n - 1)

/-- `IsValidDirectory` (DateTimeFeaturizer.cpp 110–119). -/
def isValidDirectory (path : List UInt8) : M Nat Bool := do
  match ← opendir fs path with
  | none => pure false
  | some _ =>
    closedir
    pure true

/-- "/Data/DateTimeFeaturizer/" (DateTimeFeaturizer.cpp 165). -/
def suffix : List UInt8 :=
  [47, 68, 97, 116, 97, 47, 68, 97, 116, 101, 84, 105, 109, 101, 70, 101, 97, 116, 117, 114, 105, 122, 101, 114, 47]

/-- `result.substr(0, result.find_last_of("/"))` (DateTimeFeaturizer.cpp 161). -/
def beforeLastSlash (s : List UInt8) : List UInt8 :=
  if (47 : UInt8) ∈ s then ((s.reverse.dropWhile (· ≠ 47)).drop 1).reverse else s

/-- Without a slash at the end (DateTimeFeaturizer.cpp 150–151). -/
def withoutSlash (s : List UInt8) : List UInt8 := if s.getLast? = some 47 then s.dropLast else s

/-- `GetDateTimeFeaturizerDataDirectory` (DateTimeFeaturizer.cpp 146–166).  Simplified: the path of the executable is known
(`readlink` in `GetExecutable`, 132–143, succeeds). -/
def dataDirectory (root : List UInt8) : M Nat (List UInt8) :=
  if root ≠ [] then do
    if ← isValidDirectory fs (withoutSlash root) then pure (withoutSlash root ++ suffix) else M.throw .invalidArgument
  else pure (beforeLastSlash fs.executable ++ suffix)

/-- `EnumCountries` (DateTimeFeaturizer.cpp 168–193) with a callback that stops at the first name satisfying `stop`: this name,
or `none` if it was not stopped.  When it is stopped the stream is not closed (186–187). -/
def enumCountries (root : List UInt8) (stop : List UInt8 → Bool) : M Nat (Option (List UInt8)) := do
  let dir ← dataDirectory fs root
  match ← opendir fs dir with
  | none => pure none
  | some files =>
    match files.find? stop with
    | some name => pure (some name)
    | none =>
      closedir
      pure none

/-- `EnumCountries` with a callback that collects all names and never stops. -/
def allCountries (root : List UInt8) : M Nat (List (List UInt8)) := do
  let dir ← dataDirectory fs root
  match ← opendir fs dir with
  | none => pure []
  | some files =>
    closedir
    pure files

/-- `DateTimeEstimator::IsValidCountry` (DateTimeFeaturizer.cpp 432–443). -/
def isValidCountry (root country : List UInt8) : M Nat Bool := do
  let found ← enumCountries fs root (doesCountryMatch country)
  pure found.isSome

/-- `DateTimeEstimator::GetSupportedCountries` (DateTimeFeaturizer.cpp 445–459). -/
def getSupportedCountries (root : List UInt8) : M Nat (List (List UInt8)) := do
  let files ← allCountries fs root
  pure (Feat.getSupportedCountries files)

/-- The constructor of `DateTimeEstimator` (DateTimeFeaturizer.cpp 461–475). -/
def newEstimator (root : List UInt8) (country : Option (List UInt8)) : M Nat Unit :=
  match country with
  | none => pure ()
  | some c => do
    if ← isValidCountry fs root c then pure () else M.throw .invalidArgument

/-- `GetJsonStream` and the two vectors in it (DateTimeFeaturizer.cpp 204–214, 374–375): the file is a stream, too, which is
closed at the end; it throws if the file cannot be opened or parsed. -/
def readJson (path : List UInt8) : M Nat (List (Int × Str)) := fun n =>
  if n < fs.limit then
    match fs.json path with
    | some table => (.ok table, n)
    | none => (.error .runtimeError, n)
  else (.error .runtimeError, n)

/-- The constructor of `DateTimeTransformer` (DateTimeFeaturizer.cpp 341–387): country and holidays. -/
def newTransformer (root country : List UInt8) : M Nat (List UInt8 × UMap Int Str) :=
  if country = [] then pure (country, UMap.empty)
  else do
    match ← enumCountries fs root (doesCountryMatch country) with
    | none => M.throw .invalidArgument
    | some name =>
      let dir ← dataDirectory fs root
      let table ← readJson fs (dir ++ name)
      pure (country, holidayMap table)

/-- The archive part of the archive constructor (DateTimeFeaturizer.cpp 330–336). -/
def readCountry : M Archive Str := do
  readVersion
  (Traits.deserialize : M Archive Str)

/-- `DateTimeTransformer::save` (DateTimeFeaturizer.cpp 393–400): only the country is written. -/
def saveTransformer (t : List UInt8 × UMap Int Str) : M Archive Unit := do
  writeVersion
  Traits.serialize (Str.mk t.1)

/-- The archive constructors of `DateTimeTransformer` (DateTimeFeaturizer.cpp 322–339), as used by
`DateTimeFeaturizer_CreateTransformerFromSavedDataWithDataRoot` (SharedLibrary_DateTimeFeaturizerCustom.cpp 21–47); with the
root "" by `DateTimeFeaturizer_CreateTransformerFromSavedData` (SharedLibrary_DateTimeFeaturizer.cpp 261–285). -/
def loadTransformer (root : List UInt8) (a : Archive) : M Nat (List UInt8 × UMap Int Str) :=
  match (readCountry a).1 with
  | .error e => M.throw e
  | .ok c => newTransformer fs root c.chars

/-! ### Histories of calls -/

/-- The calls that look into the data directory. -/
inductive Call where
  | isValid (root country : List UInt8)
  | supported (root : List UInt8)
  | estimator (root : List UInt8) (country : Option (List UInt8))
  | transformer (root country : List UInt8)

/-- What they return. -/
inductive Answer where
  | valid (b : Bool)
  | names (l : List (List UInt8))
  | estimator
  | transformer (country : List UInt8) (holidays : UMap Int Str)

/-- One call. -/
def Call.run : Call → M Nat Answer
  | .isValid root country => do pure (.valid (← isValidCountry fs root country))
  | .supported root => do pure (.names (← getSupportedCountries fs root))
  | .estimator root country => do
    newEstimator fs root country
    pure .estimator
  | .transformer root country => do
    let t ← newTransformer fs root country
    pure (.transformer t.1 t.2)

/-- Calls one after the other, whether they throw or not: their results and the number of open streams at the end. -/
def runAll : List Call → Nat → List (Except Err Answer) × Nat
  | [], n => ([], n)
  | c :: cs, n =>
    let r := c.run fs n
    let rest := runAll cs r.2
    (r.1 :: rest.1, rest.2)

end Feat.DataDirectory
