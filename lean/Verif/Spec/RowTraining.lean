import Verif.Model.RowTraining
import Verif.Spec.RowCodec
import Verif.Spec.Training
/-
A client of the C interface of the time series imputer that trains with byte buffers only.
-/
namespace Feat.RowCodec

/-- The bytes of a row at some address, possibly with further bytes after them. -/
def Call.raw (x : Call) : RawBuffer := (some (x.base, x.row.bytes ++ x.junk), (x.row.bytes ++ x.junk).length)

/-- The same for functions that take a single buffer. -/
def Call.buffer (x : Call) : Buffer := some (x.base, x.row.bytes ++ x.junk)

/-- A call on an estimator. -/
inductive ByteCall where
  | fit (x : Call)
  | fitBuffer (xs : List Call)
  | dataCompleted
  | complete

/-- The calls it stands for, on an estimator for rows of texts. -/
def ByteCall.direct : ByteCall → EstCall TextRow
  | .fit x => .fit (some [x.row.text])
  | .fitBuffer xs => .fit (some (xs.map fun x => x.row.text))
  | .dataCompleted => .dataCompleted
  | .complete => .complete

/-- The rows of a call. -/
def ByteCall.rows : ByteCall → List Call
  | .fit x => [x]
  | .fitBuffer xs => xs
  | _ => []

section
variable (X : Xf TextConfig TextRow TextRow) (host : Endian) (space : Nat)

/-- Perform a call through the interface. -/
def ByteCall.run : ByteCall → Op EstMemory (EstOut (List (Option TextConfig)))
  | .fit x, m => ((m.fit X host space x.buffer).1.map .fitResult, (m.fit X host space x.buffer).2)
  | .fitBuffer xs, m =>
    ((m.fitBuffer X host space (some (xs.map Call.raw))).1.map .fitResult, (m.fitBuffer X host space (some (xs.map Call.raw))).2)
  | .dataCompleted, m => ((m.onDataCompleted X).1.map fun _ => .unit, (m.onDataCompleted X).2)
  | .complete, m => ((m.completeTraining X).1.map fun _ => .unit, (m.completeTraining X).2)

/-- The results of a history of calls through the interface. -/
def runBytes : List ByteCall → EstMemory → List (Except Err (EstOut (List (Option TextConfig)))) × EstMemory
  | [], m => ([], m)
  | c :: cs, m =>
    let r := c.run X host space m
    let rest := runBytes cs r.2
    (r.1 :: rest.1, rest.2)

/-- The results of a history of calls on an estimator. -/
def runDirect {σ ι τ : Type} (h : Hooks σ ι τ) : List (EstCall ι) → Est σ → List (Except Err (EstOut τ)) × Est σ
  | [], e => ([], e)
  | c :: cs, e =>
    let r := c.run h e
    let rest := runDirect h cs r.2
    (r.1 :: rest.1, rest.2)

/-- The training loop of a client: pass the batches in turn with `FitBuffer`; start over after `Reset` and after the end of the
data; stop when `GetState` is no longer Training.  `none`: the given number of iterations did not suffice. -/
def trainLoopBytes (batches : List (List Call)) : Nat → List (List Call) → EstMemory → Option (Except Err Unit × EstMemory)
  | 0, _, _ => none
  | fuel + 1, rest, m =>
    if m.getState ≠ .training then some (.ok (), m)
    else match rest with
      | [] => some (.error .ub, m)
      | b :: bs =>
        match m.fitBuffer X host space (some (b.map Call.raw)) with
        | (.error x, m) => some (.error x, m)
        | (.ok .reset, m) => trainLoopBytes batches fuel batches m
        | (.ok _, m) =>
          if bs.isEmpty then
            match m.onDataCompleted X with
            | (.error x, m) => some (.error x, m)
            | (.ok (), m) => trainLoopBytes batches fuel batches m
          else trainLoopBytes batches fuel bs m

/-- `CreateEstimator`, the training loop, `CompleteTraining`, `CreateTransformerFromEstimator`. -/
def trainBytes (rowSpace : Nat) (keys datas : List UInt32) (strategy : UInt8) (suppress : Bool) (batches : List (List Call))
    (fuel : Nat) : Option (Except Err Memory) :=
  match createEstimator X rowSpace (some keys) (some datas) strategy (some suppress) with
  | .error e => some (.error e)
  | .ok m =>
    match trainLoopBytes X host space batches fuel batches m with
    | none => none
    | some (.error x, _) => some (.error x)
    | some (.ok (), m) =>
      match m.completeTraining X with
      | (.error x, _) => some (.error x)
      | (.ok (), m) => some (m.createTransformer X).1

end

end Feat.RowCodec
