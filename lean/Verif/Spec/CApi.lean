import Verif.Model.CApi

/-!
# What callers of the C interface see

`World.object w h` is the object that the handle `h` stands for, if it is live.  Worlds are those
reached from the loaded library by any history of requests that did not hang or crash.
-/

namespace Feat

namespace CApi

variable {σ ι τ O : Type}

/-- The object a handle stands for. -/
def World.object (w : World σ τ) (h : Nat) : Option (Obj σ τ) :=
  (w.table.find? h).bind (fun p => w.heap.find? p)

/-- `new` returns addresses that are not null and not in use, and the generator delivers numbers from
1 to 2^64 - 1. -/
structure Luck.Ok (w : World σ τ) (l : Luck) : Prop where
  addr0 : l.addr ≠ 0
  addrFree : w.heap.find? l.addr = none
  err0 : l.errAddr ≠ 0
  errFree : w.heap.find? l.errAddr = none
  distinct : l.addr ≠ l.errAddr
  draws : ∀ d ∈ l.draws, 1 ≤ d ∧ d < 2 ^ 64
  errDraws : ∀ d ∈ l.errDraws, 1 ≤ d ∧ d < 2 ^ 64

/-- Control came back to the caller. -/
def Reply.cameBack : Reply O → Prop
  | .returned _ _ _ => True
  | .escaped _ => True
  | _ => False

/-- `History F es w`: requests were served one after the other from the loaded library on, with the
replies in `es` (latest last), and `w` is the state now. -/
inductive History (F : Featurizer σ ι τ O) : List (Request ι × Reply O) → World σ τ → Prop
  | start : History F [] World.start
  | step {es : List (Request ι × Reply O)} {w w' : World σ τ} {r : Request ι} {rep : Reply O}
      {l : Luck} (h : History F es w) (hl : l.Ok w) (hs : serve F r l w = (rep, w'))
      (hb : rep.cameBack) : History F (es ++ [(r, rep)]) w'

/-- The handle a call is about (0 if it takes none). -/
def Call.handle : Call ι → Nat
  | .createEstimator _ => 0
  | .createWithDefault _ => 0
  | .destroyEstimator h => h
  | .getState h _ => h
  | .isTrainingComplete h _ => h
  | .fit h _ _ => h
  | .fitBuffer h _ _ => h
  | .onDataCompleted h => h
  | .completeTraining h => h
  | .createTransformer h _ => h
  | .loadTransformer _ _ => 0
  | .destroyTransformer h => h
  | .save h _ => h
  | .transform h _ _ => h
  | .flush h _ => h

/-- The functions that write the handle without a check are given a place for it. -/
def Call.givesOut : Call ι → Bool
  | .createEstimator out => out
  | .createWithDefault out => out
  | _ => true

/-- The call is about an estimator. -/
def Call.wantsEstimator : Call ι → Bool
  | .destroyEstimator _ | .getState _ _ | .isTrainingComplete _ _ | .fit _ _ _ | .fitBuffer _ _ _
  | .onDataCompleted _ | .completeTraining _ | .createTransformer _ _ => true
  | _ => false

/-- The call is about a transformer. -/
def Call.wantsTransformer : Call ι → Bool
  | .destroyTransformer _ | .save _ _ | .transform _ _ _ | .flush _ _ => true
  | _ => false

/-- The handle passed is not live, or stands for an object of the kind that the function expects. -/
def RightKind (w : World σ τ) (c : Call ι) : Prop :=
  (c.wantsEstimator = true → ∀ o, w.object c.handle = some o → ∃ e, o = .est e) ∧
  (c.wantsTransformer = true → ∀ o, w.object c.handle = some o → ∃ t, o = .xf t)

/-- The featurizer's own code has no undefined behaviour, and its transformers emit one value per
input. -/
structure Featurizer.Sound (F : Featurizer σ ι τ O) : Prop where
  new : F.new ≠ .error .ub
  newDefault : F.newDefault ≠ .error .ub
  begin : ∀ s, (F.hooks.begin s).1 ≠ .error .ub
  fit : ∀ xs s, (F.hooks.fit xs s).1 ≠ .error .ub
  onDataCompleted : ∀ s, (F.hooks.onDataCompleted s).1 ≠ .error .ub
  complete : ∀ s, (F.hooks.complete s).1 ≠ .error .ub
  create : ∀ s, (F.hooks.create s).1 ≠ .error .ub
  load : ∀ b, F.load b ≠ .error .ub
  save : ∀ t, F.save t ≠ .error .ub
  execErr : ∀ t x, (F.xf.exec t x).err ≠ some .ub
  execOne : ∀ t x, (F.xf.exec t x).err = none → ∃ o, (F.xf.exec t x).outs = [o]
  flush : ∀ t, (F.xf.flush t).err ≠ some .ub

/-- What a call must do, given the object its handle stands for. -/
inductive Effect (σ τ O : Type) where
  /-- fail with this exception; the object afterwards -/
  | fails (e : Err) (after : Option (Obj σ τ))
  /-- succeed with this value; the object afterwards (`none`: destroyed) -/
  | succeeds (v : Value O) (after : Option (Obj σ τ))
  /-- succeed and return a new handle for `fresh`; the object afterwards -/
  | creates (fresh : Obj σ τ) (after : Option (Obj σ τ))
  /-- undefined behaviour: the handle stands for something else -/
  | crashes

/-- Calling a method of an estimator object directly. -/
def onEst {α : Type} (o : Option (Obj σ τ)) (m : Op (Est σ) α) (f : α → Value O) : Effect σ τ O :=
  match o with
  | none => .fails .invalidArgument none
  | some (.est e) =>
    match m e with
    | (.ok a, e') => .succeeds (f a) (some (.est e'))
    | (.error x, e') => .fails x (some (.est e'))
  | some _ => .crashes

/-- Calling a method of a transformer object directly. -/
def onXf {α : Type} (o : Option (Obj σ τ)) (m : Op τ α) (f : α → Value O) : Effect σ τ O :=
  match o with
  | none => .fails .invalidArgument none
  | some (.xf t) =>
    match m t with
    | (.ok a, t') => .succeeds (f a) (some (.xf t'))
    | (.error x, t') => .fails x (some (.xf t'))
  | some _ => .crashes

/-- The effect of a call expressed by direct calls of the C++ methods on the object `o` that the
handle stands for (`none` if it is not live). -/
def direct (F : Featurizer σ ι τ O) (o : Option (Obj σ τ)) : Call ι → Effect σ τ O
  | .createEstimator _ =>
    match F.new with
    | .error e => .fails e none
    | .ok s =>
      match Est.beginTraining F.hooks (Est.new s) with
      | (.error x, _) => .fails x none
      | (.ok (), e) => .creates (.est e) none
  | .createWithDefault _ =>
    match F.newDefault with
    | .error e => .fails e none
    | .ok s => .creates (.est (Est.new s)) none
  | .destroyEstimator _ =>
    match o with
    | none => .fails .invalidArgument none
    | some (.est _) => .succeeds .nothing none
    | some _ => .crashes
  | .getState _ out =>
    if out then onEst o (fun e => (.ok e.state, e)) .state else .fails .invalidArgument o
  | .isTrainingComplete _ out =>
    if out then onEst o (fun e => (.ok (decide (e.state ≠ .training)), e)) .flag
    else .fails .invalidArgument o
  | .fit _ x out =>
    if out then onEst o (Est.fit F.hooks (some [x])) .fitResult else .fails .invalidArgument o
  | .fitBuffer _ xs out =>
    match xs with
    | none => .fails .invalidArgument o
    | some xs =>
      if out = false ∨ xs = [] then .fails .invalidArgument o
      else onEst o (Est.fit F.hooks (some xs)) .fitResult
  | .onDataCompleted _ => onEst o (Est.onDataCompleted F.hooks) (fun _ => .nothing)
  | .completeTraining _ => onEst o (Est.completeTraining F.hooks) (fun _ => .nothing)
  | .createTransformer _ out =>
    if out then
      match o with
      | none => .fails .invalidArgument none
      | some (.est e) =>
        match Est.createTransformer F.hooks e with
        | (.ok t, e') => .creates (.xf t) (some (.est e'))
        | (.error x, e') => .fails x (some (.est e'))
      | some _ => .crashes
    else .fails .invalidArgument o
  | .loadTransformer buffer out =>
    match buffer with
    | none => .fails .invalidArgument none
    | some b =>
      if out = false ∨ b = [] then .fails .invalidArgument none
      else match F.load b with
        | .error e => .fails e none
        | .ok t => .creates (.xf t) none
  | .destroyTransformer _ =>
    match o with
    | none => .fails .invalidArgument none
    | some (.xf _) => .succeeds .nothing none
    | some _ => .crashes
  | .save _ out =>
    if out then onXf o (fun t => (F.save t, t)) .bytes else .fails .invalidArgument o
  | .transform _ x out =>
    if out then onXf o (executeOne F.xf x) .item else .fails .invalidArgument o
  | .flush _ out =>
    if out then onXf o (flushAll F.xf) .items else .fails .invalidArgument o

/-- The generator delivers a number that is not in use whenever one is asked for. -/
def Luck.Delivers (w : World σ τ) (l : Luck) : Prop :=
  (∃ d ∈ l.draws, w.object d = none) ∧ ∃ d ∈ l.errDraws, w.object d = none

/-- What the caller of a C function with the handle `h` must see, given the effect that the direct
calls have: success is `true` and no error handle; failure is `false` with a fresh handle for an error
message that describes the exception; what other handles stand for does not change. -/
def Outcome (w : World σ τ) (h : Nat) : Effect σ τ O → Reply O × World σ τ → Prop
  | .crashes, (r, _) => r = .crashed
  | .fails .ub _, (r, _) => r = .crashed
  | .fails e after, (r, w') =>
    ∃ i, r = .returned false .nothing (some i) ∧ i ≠ 0 ∧ w.object i = none ∧
      ∀ j, w'.object j = if j = i then some (.message e) else if j = h then after else w.object j
  | .succeeds v after, (r, w') =>
    r = .returned true v none ∧ ∀ j, w'.object j = if j = h then after else w.object j
  | .creates fresh after, (r, w') =>
    ∃ i, r = .returned true (.handle i) none ∧ i ≠ 0 ∧ w.object i = none ∧
      ∀ j, w'.object j = if j = i then some fresh else if j = h then after else w.object j

/-- What handles stand for. -/
abbrev Objects (σ τ : Type) := Nat → Option (Obj σ τ)

/-- The handle `h` stands for `o` from now on. -/
def Objects.set (m : Objects σ τ) (h : Nat) (o : Option (Obj σ τ)) : Objects σ τ :=
  fun j => if j = h then o else m j

/-- What handles stand for after a request with the given reply, computed with direct calls of the C++
methods on the objects. -/
def afterRequest (F : Featurizer σ ι τ O) (m : Objects σ τ) : Request ι × Reply O → Objects σ τ
  | (.call c _, .returned false _ (some i)) =>
    match direct F (m c.handle) c with
    | .fails e after => (m.set c.handle after).set i (some (.message e))
    | _ => m
  | (.call c _, .returned true v none) =>
    match direct F (m c.handle) c, v with
    | .succeeds _ after, _ => m.set c.handle after
    | .creates fresh after, .handle i => (m.set c.handle after).set i (some fresh)
    | _, _ => m
  | (.destroyError h, .returned true _ _) => m.set h none
  | _ => m

/-- What handles stand for after a history, computed with direct calls. -/
def afterAll (F : Featurizer σ ι τ O) (es : List (Request ι × Reply O)) : Objects σ τ :=
  es.foldl (afterRequest F) (fun _ => none)

end CApi

end Feat
