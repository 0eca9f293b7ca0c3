import Verif.Model.DataDirectory
/-
What the calls of the date-time featurizer that look into the data directory should answer: something that depends on the file
system and the arguments only.
-/
namespace Feat.DataDirectory

/-- The directory with the tables, below the data root. -/
def below : List UInt8 :=
  ['/', 'D', 'a', 't', 'a', '/', 'D', 'a', 't', 'e', 'T', 'i', 'm', 'e', 'F', 'e', 'a', 't', 'u', 'r', 'i', 'z', 'e', 'r', '/'].map
    fun c : Char => c.toNat.toUInt8

/-- The data root can be used: none is given, or it is a directory. -/
def Usable (fs : FileSystem) (root : List UInt8) : Prop :=
  root = [] ∨ (fs.entries (withoutSlash root)).isSome

instance (fs : FileSystem) (root : List UInt8) : Decidable (Usable fs root) := by unfold Usable; infer_instance

/-- Where the tables are: below the data root, or beside the executable. -/
def place (fs : FileSystem) (root : List UInt8) : List UInt8 :=
  (if root = [] then beforeLastSlash fs.executable else withoutSlash root) ++ suffix

/-- The tables. -/
def tables (fs : FileSystem) (root : List UInt8) : List (List UInt8) := (fs.entries (place fs root)).getD []

/-- The table of a country: the first one with a matching name (C59). -/
def tableOf (fs : FileSystem) (root country : List UInt8) : Option (List UInt8) :=
  (tables fs root).find? (doesCountryMatch country)

/-- The transformer of a country. -/
def holidaysOf (fs : FileSystem) (root country : List UInt8) : Except Err (List UInt8 × UMap Int Str) :=
  if country = [] then .ok ([], UMap.empty)
  else if Usable fs root then
    match tableOf fs root country with
    | none => .error .invalidArgument
    | some name =>
      match fs.json (place fs root ++ name) with
      | none => .error .runtimeError
      | some table => .ok (country, holidayMap table)
  else .error .invalidArgument

/-- What a call should answer. -/
def Call.expected (fs : FileSystem) : Call → Except Err Answer
  | .isValid root country =>
    if Usable fs root then .ok (.valid (tableOf fs root country).isSome) else .error .invalidArgument
  | .supported root =>
    if Usable fs root then .ok (.names (Feat.getSupportedCountries (tables fs root))) else .error .invalidArgument
  | .estimator _ none => .ok .estimator
  | .estimator root (some country) =>
    if Usable fs root ∧ (tableOf fs root country).isSome then .ok .estimator else .error .invalidArgument
  | .transformer root country =>
    match holidaysOf fs root country with
    | .ok t => .ok (.transformer t.1 t.2)
    | .error e => .error e

/-- The call looks for the table of a country and finds it. -/
def Call.finds (fs : FileSystem) : Call → Bool
  | .isValid root country => Usable fs root ∧ (tableOf fs root country).isSome
  | .supported _ => false
  | .estimator _ none => false
  | .estimator root (some country) => Usable fs root ∧ (tableOf fs root country).isSome
  | .transformer root country => country ≠ [] ∧ Usable fs root ∧ (tableOf fs root country).isSome

end Feat.DataDirectory
