import Verif.Model.Transformer
import Verif.Model.Fills
import Verif.Model.Windows
import Verif.Model.FloatNorms
import Verif.Model.TimeSeriesImputer
import Verif.Model.Pivot
import Verif.Model.Filter
import Verif.Model.Grain
import Verif.Model.Pipeline
/-
The same calls of `execute` and `flush` as in Model/Transformer, one invocation of the callback at a time: what state
the transformer is in while the callback runs.  If the callback throws, the call ends there (no `execute_impl` or
`flush_impl` in the library catches an exception) and the transformer stays in that state.

Not modelled: a callback that calls the transformer again.
-/
namespace Feat

/-- A running call.  `ret t`: it returns, the state is `t`.  `fail e t`: it throws an exception of its own.
`call o now rest`: it invokes the callback with `o`; the state is `now` meanwhile; `rest` follows if the callback
returns. -/
inductive Prog (T O : Type) where
  | ret (t : T)
  | fail (e : Err) (t : T)
  | call (o : O) (now : T) (rest : Prog T O)

/-- What a callback does at a call, given all values passed to it before and the value passed now: it returns
(`none`) or throws.  Arbitrary. -/
abbrev Callback (O : Type) := List O → O → Option Err

/-- How a call ends: it returns, throws an exception of its own, or passes on an exception of the callback. -/
inductive Ending where
  | returned
  | failed (e : Err)
  | thrown (e : Err)
  deriving DecidableEq, Repr

/-- A call seen from outside: the values passed to the callback (including the one at which it threw), how the call
ended, and the state afterwards. -/
structure Seen (T O : Type) where
  values : List O
  ending : Ending
  state : T

namespace Prog
variable {T U I M O O' : Type}

/-- A call with a callback that never throws. -/
def run : Prog T O → Run T O
  | ret t => ⟨[], none, t⟩
  | fail e t => ⟨[], some e, t⟩
  | call o _ rest => ⟨o :: rest.run.outs, rest.run.err, rest.run.next⟩

/-- A call with an arbitrary callback, which has been passed `before` earlier. -/
def runWith (cb : Callback O) : List O → Prog T O → Seen T O
  | before, ret t => ⟨before, .returned, t⟩
  | before, fail e t => ⟨before, .failed e, t⟩
  | before, call o now rest =>
    match cb before o with
    | some e => ⟨before ++ [o], .thrown e, now⟩
    | none => runWith cb (before ++ [o]) rest

/-- A loop that passes values to the callback without touching the state. -/
def emit (now : T) : List O → Prog T O → Prog T O
  | [], rest => rest
  | o :: os, rest => call o now (emit now os rest)

/-- A call that changes its state first and then passes all its values to the callback. -/
def committed (r : Run T O) : Prog T O :=
  emit r.next r.outs (match r.err with | none => ret r.next | some e => fail e r.next)

/-- One statement after another. -/
def bind : Prog T O → (T → Prog T O) → Prog T O
  | ret t, k => k t
  | fail e t, _ => fail e t
  | call o now rest, k => call o now (rest.bind k)

/-- A call of a member's function from within an object, the callback wrapping the values. -/
def map (s : T → U) (f : O → O') : Prog T O → Prog U O'
  | ret t => ret (s t)
  | fail e t => fail e (s t)
  | call o now rest => call (f o) (s now) (rest.map s f)

/-- The second half of a pipeline inside a callback of the first half, whose state is `now` meanwhile. -/
def inside (now : T) : Prog U O → (U → Prog (T × U) O) → Prog (T × U) O
  | ret u, k => k u
  | fail e u, _ => fail e (now, u)
  | call o u rest, k => call o (now, u) (inside now rest k)

/-- A call of the first half of a pipeline whose callback executes the second half `q`. -/
def through (q : U → M → Prog U O) : Prog T M → U → Prog (T × U) O
  | ret t, u => ret (t, u)
  | fail e t, u => fail e (t, u)
  | call m now rest, u => inside now (q u m) (fun u' => rest.through q u')

/-- A call whose callback always throws `e`. -/
def refusing (e : Err) : Prog T O → Prog T O'
  | ret t => ret t
  | fail x t => fail x t
  | call _ now _ => fail e now

end Prog

/-- A class of transformers, one callback at a time. -/
structure PXf (T I O : Type) where
  exec : T → I → Prog T O
  flush : T → Prog T O

namespace PXf
variable {T U I M O A B V K S C : Type} {n : Nat}

/-- The transformer of Model/Transformer. -/
def xf (P : PXf T I O) : Xf T I O := ⟨fun t x => (P.exec t x).run, fun t => (P.flush t).run⟩

/-- Transformers with one output per input and no state: `callback(…)` is the last statement of `execute_impl`
(MinMaxScalerFeaturizer.h 269–295, MaxAbsScalerFeaturizer.h 243–251, RobustScalerFeaturizer.h 288–296,
StandardScaleWrapperFeaturizer.h 277–292, ImputerTransformer.h 141–143, CatImputerFeaturizer.h 231–233,
MissingDummiesFeaturizer.h 64, ImputationMarkerFeaturizer.h 50, NumericalizeFeaturizer.h 63, LabelEncoderFeaturizer.h
67–74, OneHotEncoderFeaturizer.h 81, HashOneHotVectorizerFeaturizer.h 65, CountVectorizerFeaturizer.cpp 54,
TfidfVectorizerFeaturizer.cpp 229, TruncatedSVDFeaturizer.h 100, PCAFeaturizer.h 79, ShortGrainDropperFeaturizer.cpp
55, FromStringFeaturizer.h 69, StringFeaturizer.h 69, DateTimeFeaturizer.cpp 421). -/
def ofFun (f : T → I → Except Err O) : PXf T I O where
  exec t x := match f t x with
    | .ok o => .call o t (.ret t)
    | .error e => .fail e t
  flush t := .ret t

/-- `ForwardFillImputerTransformer::execute_impl` (ForwardFillImputerFeaturizer.h 88–115): the callback comes before the
value is remembered. -/
def forwardFill : PXf (ForwardFill A) (Option A) A where
  exec t x := match x with
    | none =>
      match t.last with
      | none => .fail .runtimeError t
      | some v => .call v t (.ret t)
    | some v => .call v t (.ret { t with last := some v })
  flush t := .ret t

/-- The loop of `BackwardFillImputerTransformer::flush_impl` (BackwardFillImputerFeaturizer.h 123–126): `_numPending` is
decremented after each callback. -/
def backwardFlush (default : Option A) (d : A) : Nat → Prog (BackwardFill A) A
  | 0 => .ret ⟨default, 0⟩
  | n + 1 => .call d ⟨default, n + 1⟩ (backwardFlush default d n)

/-- `BackwardFillImputerTransformer` (BackwardFillImputerFeaturizer.h 85–101, 103–128): `execute_impl` resets
`_numPending` after the last callback. -/
def backwardFill : PXf (BackwardFill A) (Option A) A where
  exec t x := match x with
    | none => .ret { t with pending := (t.pending + 1) % 2 ^ 32 }
    | some v => .emit t (List.replicate ((t.pending + 1) % 2 ^ 32) v) (.ret { t with pending := 0 })
  flush t :=
    if t.pending ≠ 0 then
      match t.default with
      | none => .fail .runtimeError t
      | some d => backwardFlush t.default d t.pending
    else .ret t

/-- The loop of `LagLeadOperatorTransformer::flush_impl` (LagLeadOperatorFeaturizer.h 87–92). -/
def lagLeadPad (null : A) : Nat → LagLead A → Prog (LagLead A) (List (List A))
  | 0, t => .ret t
  | n + 1, t => (Prog.committed (t.step null)).bind (lagLeadPad null n)

/-- `LagLeadOperatorTransformer` (LagLeadOperatorFeaturizer.h 80–98, 324–347): `execute_helper` pushes the value into the
buffer first and calls the callback last. -/
def lagLead (null : A) (conv : B → A) : PXf (LagLead A) B (List (List A)) where
  exec t x := .committed (t.step (conv x))
  flush t := (lagLeadPad null t.params.maxDelta.toNat t).bind
    (fun t' => .ret (LagLead.init null { t' with buffer := t'.buffer.clear }))

/-- `RollingWindowTransformerBase` (Base/RollingWindowTransformerBase.h 83–119, 189–192): the value is pushed into the
buffer first, the callback comes last. -/
def rolling (agg : List A → Except Err B) : PXf (Rolling A) A (List (Option B)) where
  exec t x := .committed (t.exec agg x)
  flush t := .ret { t with buffer := t.buffer.clear }

/-- `NormalizeTransformer::execute_impl` (Base/NormalizeFeaturizer.h 293–318): `++_row` comes before the callback. -/
def normalize (k : FloatNorms.NormInput V) : PXf (Normalizer F64) (List V) (List F64) where
  exec t x := .committed (FloatNorms.execNormalizer k t x)
  flush t := .ret t

/-- `TimeSeriesImputerTransformer` (Components/TimeSeriesImputerTransformer.h 365–400, 434–523): all state is written
before the loops over the callback. -/
def tsImputer [LinearOrder K] (c : TsConfig K S) : PXf (TsImputer K S) (TsIn K S) (TsRow K S) where
  exec t x := .committed (t.exec c x)
  flush t := .committed t.flush

/-- `ForecastingPivotTransformer` (ForecastingPivotFeaturizer.h 93–143), which has no state. -/
def pivot : PXf Unit (List (PivotMatrix A)) (List A) where
  exec _ ms := .committed (pivotExec ms)
  flush t := .ret t

/-- `FilterTransformer` (Components/FilterFeaturizerImpl.h 86–107). -/
def filter (idxs : List (Fin n)) (W : PXf T (Cells C) (Cells C)) : PXf T (Vector C n) (List C) where
  exec t row := (W.exec t (toFiltered idxs row)).map id (toTransformed row)
  flush t := (W.flush t).refusing .runtimeError

/-- The loop of `GrainTransformer::flush_impl` (Components/GrainFeaturizerImpl.h 195–203): each grain's transformer is
flushed in place. -/
def flushGrains [LinearOrder K] (P : PXf T I O) : List (K × T) → OMap K T → Prog (OMap K T) (K × O)
  | [], m => .ret m
  | (k, t) :: rest, m =>
    ((P.flush t).map (fun t' => m.set k t') (fun o => (k, o))).bind (flushGrains P rest)

/-- `GrainTransformer` (Components/GrainFeaturizerImpl.h 160–203): a new grain's transformer is put into the map before
it is executed. -/
def grain [LinearOrder K] (P : PXf T I O) : PXf (GrainTransformer K T) (K × I) (K × O) where
  exec g x := match g.transformer x.1 with
    | .error e => .fail e g
    | .ok t => (P.exec t x.2).map (fun t' => { g with transformers := g.transformers.set x.1 t' }) (fun o => (x.1, o))
  flush g := (flushGrains P g.transformers.entries g.transformers).map
    (fun m => { g with transformers := m }) id

/-- A pipeline of two halves (Components/Details/PipelineExecutionEstimatorImpl_details.h 1020–1043): the second half is
executed inside the callback of the first; `flush` flushes the first half, then the second. -/
def pipe (P : PXf T I M) (Q : PXf U M O) : PXf (T × U) I O where
  exec s x := (P.exec s.1 x).through Q.exec s.2
  flush s := ((P.flush s.1).through Q.exec s.2).bind
    (fun s' => (Q.flush s'.2).map (fun u => (s'.1, u)) id)

/-- The chain of `n` `TransformerChainElement`s (Details 831–838, 883–890, 951–958, 1020–1043), as in
`Chain.xf`. -/
def chain (P : PXf T V V) : Nat → PXf (List (Option T)) V V
  | 0 => { exec := fun ts v => .call v ts (.ret ts), flush := fun ts => .ret ts }
  | n + 1 =>
    { exec := fun ts v =>
        match ts with
        | [] => .fail .ub []
        | none :: ts => ((chain P n).exec ts v).map (none :: ·) id
        | some t :: ts => ((pipe P (chain P n)).exec (t, ts) v).map (fun s => some s.1 :: s.2) id
      flush := fun ts =>
        match ts with
        | [] => .fail .ub []
        | none :: ts => ((chain P n).flush ts).map (none :: ·) id
        | some t :: ts => ((pipe P (chain P n)).flush (t, ts)).map (fun s => some s.1 :: s.2) id }

end PXf
end Feat
