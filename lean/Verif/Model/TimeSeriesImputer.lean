import Verif.Model.OMapOps
import Verif.Model.Transformer
/-
Model of the transformer of Components/TimeSeriesImputerTransformer.h.

Times are numbers of ticks of the system clock (64-bit); a cell is an optional text, of arbitrary type `S`.
-/
namespace Feat
variable {K S : Type}

/-- `TimeSeriesImputerEstimatorInputType` (TimeSeriesImputerTransformer.h 35–39). -/
structure TsIn (K S : Type) where
  time : Int
  key : K
  cells : List (Option S)
  deriving DecidableEq, Repr

/-- `TimeSeriesImputerEstimatorTransformedType` (TimeSeriesImputerTransformer.h 41–46); `added`: the row was generated. -/
structure TsRow (K S : Type) where
  added : Bool
  time : Int
  key : K
  cells : List (Option S)
  deriving DecidableEq, Repr

/-- `std::tuple_cat(std::make_tuple(false), input)`. -/
def TsIn.row (x : TsIn K S) : TsRow K S := ⟨false, x.time, x.key, x.cells⟩

/-- `TimeSeriesImputeStrategy` (TimeSeriesImputerTransformer.h 19–26). -/
inductive TsStrategy where
  | forward | backward | median | interpolate
  deriving DecidableEq, Repr

/-- `TimeSeriesMedianEstimator::DoesColTypeSupportMedian` (TimeSeriesMedianEstimator.h 136–141) on the underlying number
(Traits.h 94–132: Float16, Float32, Float64, BFloat16). -/
def supportsMedian (typeId : UInt32) : Bool :=
  typeId.toNat == 10 || typeId.toNat == 11 || typeId.toNat == 12 || typeId.toNat == 15

/-- The constant members of the transformer (TimeSeriesImputerTransformer.h 104–108).  `medians` holds the values as
converted to text by `Traits<double>::ToString` (not modelled).  `space`: the number of generated rows that fit in
memory. -/
structure TsConfig (K S : Type) [LinearOrder K] where
  frequency : Int
  types : List UInt32
  strategy : TsStrategy
  medians : OMap K (List S)
  suppress : Bool
  space : Nat

/-- The constructor (TimeSeriesImputerTransformer.h 244–257). -/
def TsConfig.check [LinearOrder K] (c : TsConfig K S) : Except Err (TsConfig K S) :=
  if c.types.length = 0 then .error .runtimeError
  else if c.frequency = 2 ^ 63 - 1 then .error .runtimeError
  else .ok c

/-- `_lastRowtracker` and `_buffer` (TimeSeriesImputerTransformer.h 116–117). -/
structure TsImputer (K S : Type) [LinearOrder K] where
  last : OMap K (TsRow K S)
  buffer : OMap K (List (TsRow K S))

/-- A new transformer has empty maps. -/
def TsImputer.new [LinearOrder K] : TsImputer K S := ⟨.empty, .empty⟩

/-- `time_point + duration`: signed 64-bit overflow is undefined. -/
def addTime (t d : Int) : Except Err Int :=
  if -2 ^ 63 ≤ t + d ∧ t + d < 2 ^ 63 then .ok (t + d) else .error .ub

/-- The loop of `generate_rows` (TimeSeriesImputerTransformer.h 408–411): the times of the generated rows, as long as
they fit in memory. -/
def generateTimes (frequency input : Int) : Nat → Int → Except Err (List Int)
  | space, temp =>
    if temp < input then
      match space with
      | 0 => .error .badAlloc
      | space + 1 =>
        match addTime temp frequency with
        | .error e => .error e
        | .ok next =>
          match generateTimes frequency input space next with
          | .error e => .error e
          | .ok times => .ok (temp :: times)
    else .ok []

/-- `generate_rows` (TimeSeriesImputerTransformer.h 402–416). -/
def generateRows (frequency : Int) (space : Nat) (input : TsIn K S) (lastObserved : Int) :
    Except Err (List (TsRow K S)) :=
  match addTime lastObserved frequency with
  | .error e => .error e
  | .ok first =>
    match generateTimes frequency input.time space first with
    | .error e => .error e
    | .ok times => .ok (times.map (fun t => ⟨true, t, input.key, List.replicate input.cells.length none⟩)
        ++ [input.row])

/-- `impute` (TimeSeriesImputerTransformer.h 418–423): reading `prev[i]` beyond its end is undefined. -/
def tsImpute : List (Option S) → List (Option S) → Except Err (List (Option S))
  | _, [] => .ok []
  | prev, some c :: current =>
    match tsImpute prev.tail current with
    | .error e => .error e
    | .ok cs => .ok (some c :: cs)
  | [], none :: _ => .error .ub
  | p :: prev, none :: current =>
    match tsImpute prev current with
    | .error e => .error e
    | .ok cs => .ok (p :: cs)

/-- `no_nulls` (TimeSeriesImputerTransformer.h 425–432). -/
def noNulls (cells : List (Option S)) : Bool := cells.all Option.isSome

/-- The loop over the columns of one row for the median strategy (TimeSeriesImputerTransformer.h 492–512); the lists of
types and medians are consumed along with the cells. -/
def medianCells (suppress : Bool) : List UInt32 → Option (List S) → List (Option S) → Except Err (List (Option S))
  | _, _, [] => .ok []
  | [], _, _ :: _ => .error .ub
  | ty :: types, medians, cell :: cells =>
    match (if supportsMedian ty = false then Except.ok cell
      else match cell with
        | some c => .ok (some c)
        | none =>
          match medians with
          | none => if suppress then .ok none else .error .runtimeError
          | some [] => .error .ub
          | some (m :: _) => .ok (some m)) with
    | .error e => .error e
    | .ok cell =>
      match medianCells suppress types (medians.map List.tail) cells with
      | .error e => .error e
      | .ok cells => .ok (cell :: cells)

/-- The loop of `ffill_or_median` over the added rows (TimeSeriesImputerTransformer.h 486–516): the imputed rows, and the
last row, which is kept up to date also when an exception ends the loop. -/
def fillRows [LinearOrder K] (c : TsConfig K S) (key : K) :
    TsRow K S → List (TsRow K S) → Except Err (List (TsRow K S)) × TsRow K S
  | last, [] => (.ok [], last)
  | last, r :: rs =>
    match (if c.strategy = .forward then tsImpute last.cells r.cells
      else medianCells c.suppress c.types (c.medians.find? key) r.cells) with
    | .error e => (.error e, last)
    | .ok cells =>
      match fillRows c key { r with cells := cells } rs with
      | (.error e, last) => (.error e, last)
      | (.ok rows, last) => (.ok ({ r with cells := cells } :: rows), last)

/-- `ffill_or_median` (TimeSeriesImputerTransformer.h 477–523). -/
def TsImputer.fill [LinearOrder K] (c : TsConfig K S) (t : TsImputer K S) (x : TsIn K S) :
    Run (TsImputer K S) (TsRow K S) :=
  let lastRow := (t.last.find? x.key).getD x.row
  match generateRows c.frequency c.space x lastRow.time with
  | .error e => ⟨[], some e, { t with last := t.last.set x.key lastRow }⟩
  | .ok rows =>
    match fillRows c x.key lastRow rows with
    | (.error e, last) => ⟨[], some e, { t with last := t.last.set x.key last }⟩
    | (.ok rows, last) => ⟨rows, none, { t with last := t.last.set x.key last }⟩

/-- The loop of `bfill` over the buffer, from its end (TimeSeriesImputerTransformer.h 449–452). -/
def backRows : TsRow K S → List (TsRow K S) → Except Err (List (TsRow K S))
  | _, [] => .ok []
  | last, r :: rs =>
    match tsImpute last.cells r.cells with
    | .error e => .error e
    | .ok cells =>
      match backRows { r with cells := cells } rs with
      | .error e => .error e
      | .ok rows => .ok ({ r with cells := cells } :: rows)

/-- `bfill` (TimeSeriesImputerTransformer.h 434–475).  The number of rows emitted at once is counted in an `int`; overflow
of it is not modelled. -/
def TsImputer.back [LinearOrder K] (c : TsConfig K S) (t : TsImputer K S) (x : TsIn K S) :
    Run (TsImputer K S) (TsRow K S) :=
  let lastRow := (t.last.find? x.key).getD x.row
  match generateRows c.frequency c.space x lastRow.time with
  | .error e => ⟨[], some e, { t with last := t.last.set x.key lastRow }⟩
  | .ok rows =>
    let buffer := (t.buffer.find? x.key).getD [] ++ rows
    match buffer.reverse with
    | [] => ⟨[], some .ub, t⟩
    | back :: _ =>
      match backRows back buffer.reverse with
      | .error e => ⟨[], some e, t⟩
      | .ok [] => ⟨[], some .ub, t⟩
      | .ok (back :: front) =>
        let filled := (back :: front).reverse
        let results := filled.takeWhile (fun r => noNulls r.cells)
        ⟨results, none, ⟨t.last.set x.key back, t.buffer.set x.key (filled.drop results.length)⟩⟩

/-- `execute_impl` (TimeSeriesImputerTransformer.h 365–385). -/
def TsImputer.exec [LinearOrder K] (c : TsConfig K S) (t : TsImputer K S) (x : TsIn K S) :
    Run (TsImputer K S) (TsRow K S) :=
  if (t.last.find? x.key).any (fun l => decide (x.time < l.time)) then
    ⟨[], some .runtimeError, t⟩
  else match c.strategy with
    | .forward => t.fill c x
    | .median => t.fill c x
    | .backward => t.back c x
    | .interpolate => ⟨[], some .runtimeError, t⟩

/-- `flush_impl` (TimeSeriesImputerTransformer.h 387–400). -/
def TsImputer.flush [LinearOrder K] (t : TsImputer K S) : Run (TsImputer K S) (TsRow K S) :=
  ⟨t.buffer.entries.flatMap (·.2), none, .new⟩

/-- The transformer. -/
def tsImputerXf [LinearOrder K] (c : TsConfig K S) : Xf (TsImputer K S) (TsIn K S) (TsRow K S) :=
  ⟨TsImputer.exec c, TsImputer.flush⟩

end Feat
