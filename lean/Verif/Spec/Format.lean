import Verif.Model.Types
import Verif.Model.Chrono
import Verif.Model.ChainArchive
import Verif.Model.OMapOps
/-
The archive format as a description of byte sequences, independent of archives, machines and addresses:
what arbitrary bytes mean when they are read as a value of a type.
-/
namespace Feat

/-- What reading a byte sequence comes to: a value and the bytes left over, an exception, or an operation
C++ does not define. -/
inductive Parsed (α : Type) where
  | done (v : α) (rest : List UInt8)
  | refused
  | undefined

/-- Read on with what is left. -/
def Parsed.andThen {α β : Type} : Parsed α → (α → List UInt8 → Parsed β) → Parsed β
  | .done v rest, f => f v rest
  | .refused, _ => .refused
  | .undefined, _ => .undefined

/-- A way to read byte sequences. -/
abbrev Parser (α : Type) := List UInt8 → Parsed α

/-- The number with these base-256 digits, least significant first. -/
def number (bs : List UInt8) : Nat := bs.foldr (fun b n => b.toNat + 256 * n) 0

/-- `n` bytes holding a number; some numbers may denote no value. -/
def fixed {α : Type} (n : Nat) (value : Nat → Option α) : Parser α := fun bs =>
  if bs.length < n then .refused
  else match value (number (bs.take n)) with
    | some v => .done v (bs.drop n)
    | none => .undefined

/-- Two's complement in `n` bits. -/
def signedValue (n : Nat) (x : Nat) : Int := if x < 2 ^ (n - 1) then x else (x : Int) - 2 ^ n

/-- The format of a type. -/
class Format (T : Type) where
  parse : Parser T

instance : Format UInt8 := ⟨fixed 1 fun n => some (UInt8.ofNat n)⟩
instance : Format UInt16 := ⟨fixed 2 fun n => some (UInt16.ofNat n)⟩
instance : Format UInt32 := ⟨fixed 4 fun n => some (UInt32.ofNat n)⟩
instance : Format UInt64 := ⟨fixed 8 fun n => some (UInt64.ofNat n)⟩
instance : Format Int8 := ⟨fixed 1 fun n => some (Int8.ofInt (signedValue 8 n))⟩
instance : Format Int16 := ⟨fixed 2 fun n => some (Int16.ofInt (signedValue 16 n))⟩
instance : Format Int32 := ⟨fixed 4 fun n => some (Int32.ofInt (signedValue 32 n))⟩
instance : Format Int64 := ⟨fixed 8 fun n => some (Int64.ofInt (signedValue 64 n))⟩
instance : Format F32 := ⟨fixed 4 fun n => some ⟨UInt32.ofNat n⟩⟩
instance : Format F64 := ⟨fixed 8 fun n => some ⟨UInt64.ofNat n⟩⟩

/-- A `bool` is the byte 0 or 1; copying any other byte into a `bool` is undefined. -/
instance : Format Bool := ⟨fixed 1 fun n => if n = 0 then some false else if n = 1 then some true else none⟩

/-- A length in four bytes, then that many bytes. -/
instance : Format Str := ⟨fun bs =>
  (Format.parse (T := UInt32) bs).andThen fun n rest =>
    if rest.length < n.toNat then .refused else .done ⟨rest.take n.toNat⟩ (rest.drop n.toNat)⟩

/-- `n` things in a row. -/
def items {α : Type} (p : Parser α) : Nat → Parser (List α)
  | 0, bs => .done [] bs
  | n + 1, bs => (p bs).andThen fun x rest =>
      (items p n rest).andThen fun xs rest => .done (x :: xs) rest

/-- A count in four bytes, then that many things. -/
def counted {α : Type} (p : Parser α) : Parser (List α) := fun bs =>
  (Format.parse (T := UInt32) bs).andThen fun n rest => items p n.toNat rest

/-- One thing, then another. -/
def both {α β : Type} (p : Parser α) (q : Parser β) : Parser (α × β) := fun bs =>
  (p bs).andThen fun a rest => (q rest).andThen fun b rest => .done (a, b) rest

/-- Make something of what was read. -/
def mapped {α β : Type} (f : α → β) (p : Parser α) : Parser β := fun bs =>
  (p bs).andThen fun a rest => .done (f a) rest

instance : Format Unit := ⟨fun bs => .done () bs⟩
instance {T : Type} [Format T] : Format (List T) := ⟨counted Format.parse⟩
instance {A B : Type} [Format A] [Format B] : Format (A × B) := ⟨both Format.parse Format.parse⟩

/-- Exactly `n` things, no count. -/
instance {T : Type} {n : Nat} [Format T] : Format (Arr T n) := ⟨fun bs =>
  (items (Format.parse (T := T)) n bs).andThen fun l rest =>
    if h : l.length = n then .done ⟨l, h⟩ rest else .undefined⟩

/-- A `bool`, and a value if it is true. -/
instance {T : Type} [Format T] : Format (Option T) := ⟨fun bs =>
  (Format.parse (T := Bool) bs).andThen fun b rest =>
    if b then mapped some Format.parse rest else .done none rest⟩

/-- The map made of a list of pairs: of two pairs with the same key the first one counts. -/
def OMap.ofPairs {K V : Type} [LinearOrder K] (l : List (K × V)) : OMap K V :=
  l.foldl (fun m e => m.emplace e.1 e.2) ⟨[], by simp⟩

/-- See `OMap.ofPairs`. -/
def UMap.ofPairs {K V : Type} [DecidableEq K] (l : List (K × V)) : UMap K V :=
  l.foldl (fun m e => m.emplace e.1 e.2) ⟨[], by simp⟩

/-- The set of the elements of a list. -/
def USet.ofItems {K : Type} [DecidableEq K] (l : List K) : USet K :=
  l.foldl (fun m k => m.emplace k) ⟨[], by simp⟩

instance {K V : Type} [LinearOrder K] [Format K] [Format V] : Format (OMap K V) :=
  ⟨mapped OMap.ofPairs (counted Format.parse)⟩
instance {K V : Type} [DecidableEq K] [Format K] [Format V] : Format (UMap K V) :=
  ⟨mapped UMap.ofPairs (counted Format.parse)⟩
instance {K : Type} [DecidableEq K] [Format K] : Format (USet K) :=
  ⟨mapped USet.ofItems (counted Format.parse)⟩

/-- Rows and columns as signed 64-bit numbers (a negative one is undefined), then the elements, column by
column or row by row. -/
instance {T : Type} {cm : Bool} [Format T] : Format (Mat T cm) := ⟨fun bs =>
  (Format.parse (T := Int64 × Int64) bs).andThen fun d rest =>
    if d.1.toInt < 0 ∨ d.2.toInt < 0 then .undefined
    else
      let inner := (if cm then d.1 else d.2).toInt.toNat
      let outer := (if cm then d.2 else d.1).toInt.toNat
      (items (items (Format.parse (T := T)) inner) outer rest).andThen fun ls rest =>
        if h : ∀ l ∈ ls, l.length = inner then .done ⟨inner, ls, h⟩ rest else .undefined⟩

/-- A number of units of `q` ticks; undefined if the number of ticks exceeds 64 bits. -/
def scaled (q : Nat) : Parser Int64 := fun bs =>
  (Format.parse (T := Int64) bs).andThen fun n rest =>
    if -2 ^ 63 ≤ n.toInt * q ∧ n.toInt * q < 2 ^ 63 then .done (Int64.ofInt (n.toInt * q)) rest
    else .undefined

instance {q : Nat} : Format (Duration q) := ⟨mapped Duration.mk (scaled q)⟩
instance {q : Nat} : Format (TimePoint q) := ⟨mapped TimePoint.mk (scaled q)⟩

/-- The operation `m` on a reading archive behaves as `p` says, on any machine, wherever the bytes lie and
whatever precedes them: it returns the value and moves past the bytes used, or throws, or is undefined. -/
def Follows {α : Type} (m : M Archive α) (p : Parser α) : Prop :=
  ∀ h space base pre bs, Roomy space base (pre ++ bs).length →
    match p bs with
    | .done v rest => ∃ used, bs = used ++ rest ∧
        m (.rd h space base (pre ++ bs) pre.length)
          = (.ok v, .rd h space base (pre ++ bs) (pre ++ used).length)
    | .refused => ∃ e a', m (.rd h space base (pre ++ bs) pre.length) = (.error e, a') ∧ e.isException
    | .undefined => ∃ a', m (.rd h space base (pre ++ bs) pre.length) = (.error .ub, a')

/-- What `p` makes of some bytes does not depend on what follows the bytes it uses. -/
def Settled {α : Type} (p : Parser α) : Prop :=
  ∀ bs more, match p bs with
    | .done v rest => p (bs ++ more) = .done v (rest ++ more)
    | .refused => True
    | .undefined => p (bs ++ more) = .undefined

/-- Two 16-bit version numbers, which have to be 1 and 0. -/
def afterVersion {α : Type} (p : Parser α) : Parser α := fun bs =>
  (Format.parse (T := UInt16 × UInt16) bs).andThen fun v rest => if v = (1, 0) then p rest else .refused

/-- What a constructor makes of the parameters read. -/
def built {α β : Type} (make : α → Except Err β) (p : Parser α) : Parser β := fun bs =>
  (p bs).andThen fun a rest =>
    match make a with
    | .ok b => .done b rest
    | .error e => if e = .ub then .undefined else .refused

/-- The format of the transformers of a class whose parameters are read by `p`. -/
def TClass.format (c : TClass) (p : Parser c.Params) : Parser c.Obj :=
  if c.versioned then afterVersion (built c.make p) else built c.make p

/-- A kind of transformer in a pipeline, with the way its bytes are read. -/
structure ReadStage : Type 1 where
  c : ArClass
  parse : Parser c.Obj

/-- A pipeline in an archive: the last transformer comes first. -/
def pipelineFormat : (l : List (Option ReadStage)) → Parser (ChainObj (l.map (Option.map ReadStage.c)))
  | [] => fun bs => .done () bs
  | none :: l => pipelineFormat l
  | some s :: l => mapped (fun x => (x.2, x.1)) (both (pipelineFormat l) s.parse)

/-- A time series imputer in an archive: version, frequency, column types (each of them checked), strategy
(checked), medians, flag; at least one column; not the frequency that stands for "none was found". -/
def timeSeriesFormat (q : Nat) : Parser (timeSeriesImputer q).Obj := afterVersion fun bs =>
  (Format.parse (T := Duration q × List UInt32) bs).andThen fun dt rest =>
    if ∃ i ∈ dt.2, ¬ validTypeId i then .refused
    else (Format.parse (T := UInt8) rest).andThen fun s rest =>
      if s.toNat < 1 ∨ 4 < s.toNat then .refused
      else (Format.parse (T := OMap (List Str) (List F64) × Bool) rest).andThen fun mb rest =>
        if dt.2 = [] ∨ dt.1.ticks.toInt = 2 ^ 63 - 1 then .refused
        else .done (dt.1, dt.2, s, mb.1, mb.2) rest

/-- `n` grains with their transformers; a grain that comes twice is refused. -/
def grainItems {K T : Type} [LinearOrder K] (pk : Parser K) (pt : Parser T) : Nat → OMap K T → Parser (OMap K T)
  | 0, m => fun bs => .done m bs
  | n + 1, m => fun bs => (both pk pt bs).andThen fun e rest =>
      if (m.find? e.1).isSome then .refused else grainItems pk pt n (m.emplace e.1 e.2) rest

/-- A grain transformer in an archive: a 64-bit count, that many grains, and a flag.  If the flag is set, more
bytes have to follow (they describe the transformer of grains to come, and are not used yet); if not, there has to
be a grain. -/
def grainFormat {K T : Type} [LinearOrder K] (pk : Parser K) (pt : Parser T) : Parser (OMap K T × Bool) := fun bs =>
  (Format.parse (T := UInt64) bs).andThen fun n rest =>
    (grainItems pk pt n.toNat OMap.empty rest).andThen fun m rest =>
      (Format.parse (T := Bool) rest).andThen fun more rest =>
        if (if more then rest = [] else m.entries = []) then .refused else .done (m, more) rest

end Feat
