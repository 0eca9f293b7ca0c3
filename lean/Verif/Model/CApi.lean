import Verif.Model.PointerTable
import Verif.Model.Estimator
import Verif.Model.Transformer

/-!
# Model of the C interface

`SharedLibrary/GeneratedCode/SharedLibrary_CatImputerFeaturizer.cpp` 41–425 (the interface to one
featurizer; the generated files for the other featurizers repeat it with other types) and
`SharedLibrary_Common.cpp`, `SharedLibrary_RobustScalerFeaturizerCustom.cpp`.  The featurizer behind the interface is arbitrary.

Objects live on a heap; handles are indexes into the table of pointers.  The addresses that `new`
returns and the numbers that the table's generator draws during a call are supplied with the call.
Not modelled: exhaustion of memory; the buffers handed to the caller (saved data, flushed items,
message texts), which are not objects behind handles.  A message text is represented by the exception
it describes.
-/

namespace Feat

namespace CApi

/-- The featurizer behind the interface: its constructor (`newDefault`: the function with default arguments that the robust
scaler has besides, `RobustScalerEstimator::CreateWithDefaultScaling`), its estimator and transformer classes and
the transformer's `save` and archive constructor. -/
structure Featurizer (σ ι τ O : Type) where
  new : Except Err σ
  newDefault : Except Err σ := .error .runtimeError
  hooks : Hooks σ ι τ
  xf : Xf τ ι O
  load : List UInt8 → Except Err τ
  save : τ → Except Err (List UInt8)

/-- An object that a handle can stand for. -/
inductive Obj (σ τ : Type) where
  | est (e : Est σ)
  | xf (t : τ)
  | message (e : Err)

/-- The state of the library: `g_pointerTable` and the heap. -/
structure World (σ τ : Type) where
  table : PTable
  heap : UMap Nat (Obj σ τ)

/-- What the allocator and the generator deliver to a call: the address and the draws for an object
the call creates, and those for the error it may have to report. -/
structure Luck where
  addr : Nat
  draws : List Nat
  errAddr : Nat
  errDraws : List Nat

/-- A call.  Handles are numbers, 0 being null; `out` says whether the out-parameters for the result
are given (not null). -/
inductive Call (ι : Type) where
  | createEstimator (out : Bool)
  | createWithDefault (out : Bool)
  | destroyEstimator (h : Nat)
  | getState (h : Nat) (out : Bool)
  | isTrainingComplete (h : Nat) (out : Bool)
  | fit (h : Nat) (input : ι) (out : Bool)
  | fitBuffer (h : Nat) (input : Option (List ι)) (out : Bool)
  | onDataCompleted (h : Nat)
  | completeTraining (h : Nat)
  | createTransformer (h : Nat) (out : Bool)
  | loadTransformer (buffer : Option (List UInt8)) (out : Bool)
  | destroyTransformer (h : Nat)
  | save (h : Nat) (out : Bool)
  | transform (h : Nat) (input : ι) (out : Bool)
  | flush (h : Nat) (out : Bool)

/-- What is written to the out-parameters. -/
inductive Value (O : Type) where
  | nothing
  | handle (h : Nat)
  | state (s : TrainingState)
  | flag (b : Bool)
  | fitResult (r : FitResult)
  | bytes (b : List UInt8)
  | item (o : O)
  | items (os : List O)

/-- How a call ends. -/
inductive Reply (O : Type) where
  /-- it returned `ok`, with the error handle it reported, if any -/
  | returned (ok : Bool) (value : Value O) (error : Option Nat)
  /-- an exception left the `extern "C"` function -/
  | escaped (e : Err)
  /-- undefined behaviour -/
  | crashed
  /-- still looking for a free handle -/
  | pending

variable {σ ι τ O : Type}

/-- `*ptr = value` for the object at an address. -/
def World.put (w : World σ τ) (p : Nat) (o : Obj σ τ) : World σ τ :=
  { w with heap := w.heap.update p (fun _ => o) }

/-- `g_pointerTable.Get<Estimator>(index)` and dereferencing — the table does not know the types
(PointerTable.h 132), so a handle for something else is undefined behaviour. -/
def World.estimator (w : World σ τ) (h : Nat) : Except Err (Nat × Est σ) :=
  match w.table.get h with
  | .error e => .error e
  | .ok p =>
    match w.heap.find? p with
    | some (.est e) => .ok (p, e)
    | _ => .error .ub

/-- `g_pointerTable.Get<TransformerType>(index)` and dereferencing. -/
def World.transformer (w : World σ τ) (h : Nat) : Except Err (Nat × τ) :=
  match w.table.get h with
  | .error e => .error e
  | .ok p =>
    match w.heap.find? p with
    | some (.xf t) => .ok (p, t)
    | _ => .error .ub

/-- `g_pointerTable.Get<std::string>(index)` and dereferencing. -/
def World.message (w : World σ τ) (h : Nat) : Except Err (Nat × Err) :=
  match w.table.get h with
  | .error e => .error e
  | .ok p =>
    match w.heap.find? p with
    | some (.message e) => .ok (p, e)
    | _ => .error .ub

/-- `new` of an object, `g_pointerTable.Add` of its address. `none`: `Add` has not returned. -/
def World.addObject (w : World σ τ) (addr : Nat) (draws : List Nat) (o : Obj σ τ) :
    Option (Except Err Nat × World σ τ) :=
  match w.table.add draws addr with
  | none => none
  | some (r, t) => some (r, ⟨t, w.heap.emplace addr o⟩)

/-- `g_pointerTable.Remove(index); delete ptr` of the object at address `p`. -/
def World.destroy (w : World σ τ) (h p : Nat) : Except Err Unit × World σ τ :=
  match w.table.remove h with
  | (.error e, t) => (.error e, { w with table := t })
  | (.ok (), t) => (.ok (), ⟨t, w.heap.erase p⟩)

/-- Call a method of the estimator behind a handle. -/
def World.onEstimator (w : World σ τ) (h : Nat) {α : Type} (m : Op (Est σ) α) (f : α → Value O) :
    Option (Except Err (Value O) × World σ τ) :=
  if h = 0 then some (.error .invalidArgument, w)
  else match w.estimator h with
    | .error e => some (.error e, w)
    | .ok (p, e) =>
      match m e with
      | (.error x, e') => some (.error x, w.put p (.est e'))
      | (.ok a, e') => some (.ok (f a), w.put p (.est e'))

/-- Call a method of the transformer behind a handle. -/
def World.onTransformer (w : World σ τ) (h : Nat) {α : Type} (m : Op τ α) (f : α → Value O) :
    Option (Except Err (Value O) × World σ τ) :=
  if h = 0 then some (.error .invalidArgument, w)
  else match w.transformer h with
    | .error e => some (.error e, w)
    | .ok (p, t) =>
      match m t with
      | (.error x, t') => some (.error x, w.put p (.xf t'))
      | (.ok a, t') => some (.ok (f a), w.put p (.xf t'))

/-- `StandardTransformer::execute` returning the value — Featurizer.h 580–610: the callback must be
called exactly once (asserted). -/
def executeOne (X : Xf τ ι O) (x : ι) : Op τ O := fun t =>
  match X.exec t x with
  | ⟨_, some e, t'⟩ => (.error e, t')
  | ⟨[o], none, t'⟩ => (.ok o, t')
  | ⟨_, none, t'⟩ => (.error .ub, t')

/-- `flush` with a callback that collects the items — SharedLibrary_CatImputerFeaturizer.cpp 391–399. -/
def flushAll (X : Xf τ ι O) : Op τ (List O) := fun t =>
  match X.flush t with
  | ⟨_, some e, t'⟩ => (.error e, t')
  | ⟨os, none, t'⟩ => (.ok os, t')

/-- The statements inside `try` of each function (SharedLibrary_CatImputerFeaturizer.cpp, line numbers
at each case).  `none`: the call has not returned. -/
def body (F : Featurizer σ ι τ O) (w : World σ τ) (l : Luck) :
    Call ι → Option (Except Err (Value O) × World σ τ)
  /- 41–63; `*ppHandle` is written without a check. -/
  | .createEstimator out =>
    match F.new with
    | .error e => some (.error e, w)
    | .ok s =>
      match Est.beginTraining F.hooks (Est.new s) with
      | (.error x, e) => some (.error x, { w with heap := w.heap.emplace l.addr (.est e) })
      | (.ok (), e) =>
        match w.addObject l.addr l.draws (.est e) with
        | none => none
        | some (.error x, w') => some (.error x, w')
        | some (.ok i, w') => if out then some (.ok (.handle i), w') else some (.error .ub, w')
  /- `RobustScalerFeaturizer_…_CreateEstimatorWithDefault` (SharedLibrary_RobustScalerFeaturizerCustom.cpp 29–48): training
  is not begun; `*ppHandle` is written without a check. -/
  | .createWithDefault out =>
    match F.newDefault with
    | .error e => some (.error e, w)
    | .ok s =>
      match w.addObject l.addr l.draws (.est (Est.new s)) with
      | none => none
      | some (.error x, w') => some (.error x, w')
      | some (.ok i, w') => if out then some (.ok (.handle i), w') else some (.error .ub, w')
  /- 65–86 -/
  | .destroyEstimator h =>
    if h = 0 then some (.error .invalidArgument, w)
    else match w.estimator h with
      | .error e => some (.error e, w)
      | .ok (p, _) =>
        match w.destroy h p with
        | (.error e, w') => some (.error e, w')
        | (.ok (), w') => some (.ok .nothing, w')
  /- 88–108 -/
  | .getState h out =>
    if h = 0 ∨ out = false then some (.error .invalidArgument, w)
    else w.onEstimator h (fun e => (.ok e.state, e)) .state
  /- 110–130 -/
  | .isTrainingComplete h out =>
    if h = 0 ∨ out = false then some (.error .invalidArgument, w)
    else w.onEstimator h (fun e => (.ok (decide (e.state ≠ .training)), e)) .flag
  /- 132–156 -/
  | .fit h x out =>
    if h = 0 ∨ out = false then some (.error .invalidArgument, w)
    else w.onEstimator h (Est.fit F.hooks (some [x])) .fitResult
  /- 158–190 -/
  | .fitBuffer h xs out =>
    if h = 0 ∨ out = false then some (.error .invalidArgument, w)
    else match xs with
      | none => some (.error .invalidArgument, w)
      | some xs =>
        if xs.length = 0 then some (.error .invalidArgument, w)
        else w.onEstimator h (Est.fit F.hooks (some xs)) .fitResult
  /- 192–211 -/
  | .onDataCompleted h => w.onEstimator h (Est.onDataCompleted F.hooks) (fun _ => .nothing)
  /- 213–232 -/
  | .completeTraining h => w.onEstimator h (Est.completeTraining F.hooks) (fun _ => .nothing)
  /- 234–257 -/
  | .createTransformer h out =>
    if h = 0 ∨ out = false then some (.error .invalidArgument, w)
    else match w.estimator h with
      | .error e => some (.error e, w)
      | .ok (p, e) =>
        match Est.createTransformer F.hooks e with
        | (.error x, e') => some (.error x, w.put p (.est e'))
        | (.ok t, e') =>
          match (w.put p (.est e')).addObject l.addr l.draws (.xf t) with
          | none => none
          | some (.error x, w') => some (.error x, w')
          | some (.ok i, w') => some (.ok (.handle i), w')
  /- 259–283 -/
  | .loadTransformer buffer out =>
    match buffer with
    | none => some (.error .invalidArgument, w)
    | some b =>
      if b.length = 0 ∨ out = false then some (.error .invalidArgument, w)
      else match F.load b with
        | .error e => some (.error e, w)
        | .ok t =>
          match w.addObject l.addr l.draws (.xf t) with
          | none => none
          | some (.error x, w') => some (.error x, w')
          | some (.ok i, w') => some (.ok (.handle i), w')
  /- 285–306 -/
  | .destroyTransformer h =>
    if h = 0 then some (.error .invalidArgument, w)
    else match w.transformer h with
      | .error e => some (.error e, w)
      | .ok (p, _) =>
        match w.destroy h p with
        | (.error e, w') => some (.error e, w')
        | (.ok (), w') => some (.ok .nothing, w')
  /- 308–339 -/
  | .save h out =>
    if h = 0 ∨ out = false then some (.error .invalidArgument, w)
    else w.onTransformer h (fun t => (F.save t, t)) .bytes
  /- 341–370 -/
  | .transform h x out =>
    if h = 0 ∨ out = false then some (.error .invalidArgument, w)
    else w.onTransformer h (executeOne F.xf x) .item
  /- 372–425 -/
  | .flush h out =>
    if h = 0 ∨ out = false then some (.error .invalidArgument, w)
    else w.onTransformer h (flushAll F.xf) .items

/-- A function of the interface: `ppErrorInfo` is checked, the body runs inside `try`, and an exception
is turned into an error handle by `CreateErrorInfo` (SharedLibrary_Common.cpp 80–85). -/
def invoke (F : Featurizer σ ι τ O) (c : Call ι) (errOut : Bool) (l : Luck) (w : World σ τ) :
    Reply O × World σ τ :=
  if errOut = false then (.returned false .nothing none, w)
  else match body F w l c with
    | none => (.pending, w)
    | some (.ok v, w') => (.returned true v none, w')
    | some (.error .ub, w') => (.crashed, w')
    | some (.error e, w') =>
      match w'.addObject l.errAddr l.errDraws (.message e) with
      | none => (.pending, w')
      | some (.error e', w'') => (.escaped e', w'')
      | some (.ok i, w'') => (.returned false .nothing (some i), w'')

/-- `GetErrorInfoString` — SharedLibrary_Common.cpp 19–33: no `try`. -/
def getErrorInfoString (h : Nat) (out : Bool) (w : World σ τ) : Reply O × Option Err :=
  if h = 0 ∨ out = false then (.returned false .nothing none, none)
  else match w.message h with
    | .error .ub => (.crashed, none)
    | .error e => (.escaped e, none)
    | .ok (_, m) => (.returned true .nothing none, some m)

/-- `DestroyErrorInfo` — SharedLibrary_Common.cpp 42–55: no `try`. -/
def destroyErrorInfo (h : Nat) (w : World σ τ) : Reply O × World σ τ :=
  if h = 0 then (.returned false .nothing none, w)
  else match w.message h with
    | .error .ub => (.crashed, w)
    | .error e => (.escaped e, w)
    | .ok (p, _) =>
      match w.destroy h p with
      | (.error e, w') => (.escaped e, w')
      | (.ok (), w') => (.returned true .nothing none, w')

/-- A call from outside: a function of the featurizer's interface, or one for errors. -/
inductive Request (ι : Type) where
  | call (c : Call ι) (errOut : Bool)
  | errorText (h : Nat) (out : Bool)
  | destroyError (h : Nat)

/-- Serve a request. -/
def serve (F : Featurizer σ ι τ O) (r : Request ι) (l : Luck) (w : World σ τ) :
    Reply O × World σ τ :=
  match r with
  | .call c errOut => invoke F c errOut l w
  | .errorText h out => ((getErrorInfoString h out w).1, w)
  | .destroyError h => destroyErrorInfo h w

/-- The library as loaded. -/
def World.start : World σ τ := ⟨UMap.empty, UMap.empty⟩

end CApi

end Feat
