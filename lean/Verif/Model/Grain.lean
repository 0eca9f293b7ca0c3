import Verif.Model.OMapOps
import Verif.Model.Estimator
import Verif.Model.Transformer
import Verif.Model.ChainArchive
/-
Model of Components/GrainFeaturizerImpl.h: one estimator and one transformer per grain.

The transformers and estimators of the grains are arbitrary (`Xf`, `Hooks`, `ArClass`).
-/
namespace Feat
variable {K T I O σ ι α : Type}

/-! ### GrainTransformer -/

/-- The members of `GrainTransformer` (GrainFeaturizerImpl.h 142–150).  `create` is `_createFunc`, represented by what
calling it gives (it is called for a new transformer each time, and always gives an equal one). -/
structure GrainTransformer (K T : Type) [LinearOrder K] where
  had : Bool
  create : Option (Except Err T)
  transformers : OMap K T

/-- `GrainTransformer(CreateTransformerFunc)` (GrainFeaturizerImpl.h 534–546). -/
def GrainTransformer.newCreate [LinearOrder K] (create : Option (Except Err T)) :
    Except Err (GrainTransformer K T) :=
  match create with
  | none => .error .invalidArgument
  | some c => .ok ⟨false, some c, .empty⟩

/-- `GrainTransformer(TransformerMap, CreateTransformerFunc)` (GrainFeaturizerImpl.h 549–562). -/
def GrainTransformer.newMap [LinearOrder K] (transformers : OMap K T) (create : Option (Except Err T)) :
    Except Err (GrainTransformer K T) :=
  if transformers.entries.length = 0 then .error .invalidArgument
  else .ok ⟨true, create, transformers⟩

/-- Outputs are paired with their grain (GrainFeaturizerImpl.h 188–190, 198–200). -/
def Run.grain (k : K) (r : Run T O) : List (K × O) := r.outs.map fun o => (k, o)

/-- The transformer of a grain, made if the grain is new (GrainFeaturizerImpl.h 162–182). -/
def GrainTransformer.transformer [LinearOrder K] (g : GrainTransformer K T) (k : K) : Except Err T :=
  match g.transformers.find? k with
  | some t => .ok t
  | none =>
    match g.create with
    | none => .error .runtimeError
    | some c => c

/-- `execute_impl` (GrainFeaturizerImpl.h 160–192). -/
def GrainTransformer.exec [LinearOrder K] (X : Xf T I O) (g : GrainTransformer K T) (x : K × I) :
    Run (GrainTransformer K T) (K × O) :=
  match g.transformer x.1 with
  | .error e => ⟨[], some e, g⟩
  | .ok t =>
    let r := X.exec t x.2
    ⟨r.grain x.1, r.err, { g with transformers := g.transformers.set x.1 r.next }⟩

/-- The loop of `flush_impl` (GrainFeaturizerImpl.h 195–203), in the order of the grains. -/
def flushGrains [LinearOrder K] (X : Xf T I O) : List (K × T) → OMap K T → Run (OMap K T) (K × O)
  | [], m => ⟨[], none, m⟩
  | (k, t) :: rest, m =>
    match X.flush t with
    | ⟨outs, some e, t'⟩ => ⟨(⟨outs, some e, t'⟩ : Run T O).grain k, some e, m.set k t'⟩
    | ⟨outs, none, t'⟩ =>
      match flushGrains X rest (m.set k t') with
      | ⟨outs', e, m'⟩ => ⟨(⟨outs, none, t'⟩ : Run T O).grain k ++ outs', e, m'⟩

/-- `flush_impl`. -/
def GrainTransformer.flush [LinearOrder K] (X : Xf T I O) (g : GrainTransformer K T) :
    Run (GrainTransformer K T) (K × O) :=
  let r := flushGrains X g.transformers.entries g.transformers
  ⟨r.outs, r.err, { g with transformers := r.next }⟩

/-- The transformer. -/
def grainXf [LinearOrder K] (X : Xf T I O) : Xf (GrainTransformer K T) (K × I) (K × O) :=
  ⟨GrainTransformer.exec X, GrainTransformer.flush X⟩

/-! ### Archives -/

/-- The loop of `save` (GrainFeaturizerImpl.h 615–618). -/
def grainSaveLoop [Traits K] (c : ArClass) : List (K × c.Obj) → M Archive Unit
  | [] => pure ()
  | (k, t) :: rest => do
    Traits.serialize k
    c.save t
    grainSaveLoop c rest

/-- `save` (GrainFeaturizerImpl.h 611–630). -/
def GrainTransformer.save [LinearOrder K] [Traits K] (c : ArClass) (g : GrainTransformer K c.Obj) :
    M Archive Unit := do
  if g.had then
    Scalar.write (UInt64.ofNat g.transformers.entries.length)
    grainSaveLoop c g.transformers.entries
  else
    Scalar.write (0 : UInt64)
  Scalar.write g.create.isSome
  match g.create with
  | none => pure ()
  | some (.error e) => M.throw e
  | some (.ok t) => c.save t

/-- The loop of the archive constructor (GrainFeaturizerImpl.h 571–579). -/
def grainLoadLoop [LinearOrder K] [Traits K] (c : ArClass) : Nat → OMap K c.Obj → M Archive (OMap K c.Obj)
  | 0, m => pure m
  | n + 1, m => do
    let k ← (Traits.deserialize : M Archive K)
    let t ← c.load
    if (m.find? k).isSome then M.throw .runtimeError
    else grainLoadLoop c n (m.emplace k t)

/-- The archive constructor (GrainFeaturizerImpl.h 565–593).  The function for new grains reads a copy (placed at
`base'`) of the rest of the archive, whose cursor is not moved (lines 590, 655–663); `_hadTransformersWhenCreated` is
set as in line 637. -/
def GrainTransformer.load [LinearOrder K] [Traits K] (c : ArClass) (base' : Nat) :
    M Archive (GrainTransformer K c.Obj) := do
  let n ← Scalar.read UInt64
  let m ← grainLoadLoop c n.toNat (OMap.empty : OMap K c.Obj)
  let hasCreate ← Scalar.read Bool
  if hasCreate = false then
    if m.entries.length = 0 then M.throw .runtimeError
    else pure ⟨true, none, m⟩
  else
    let ar ← Archive.clone base'
    pure ⟨m.entries.isEmpty, some (c.load ar).1, m⟩

/-! ### GrainEstimatorImpl -/

/-- How the estimator of a grain holds the shared annotations (a pointer in the code). -/
structure StoreLens (σ α : Type) where
  get : σ → AnnotationMaps α
  set : AnnotationMaps α → σ → σ

/-- The members that change (GrainFeaturizerImpl.h 261, 272, 276) and the annotations. -/
structure GrainEst (K σ α : Type) [LinearOrder K] where
  maps : AnnotationMaps α
  estimators : OMap K (Est σ)
  remaining : Nat

/-- The constant members: `_isInferenceOnlyEstimator`, what `_createFunc` makes, the name of the estimator made,
`GrainEstimatorAnnotation`. -/
structure GrainConfig (K σ α : Type) [LinearOrder K] where
  inferenceOnly : Bool
  fresh : σ
  name : String
  wrap : OMap K α → α

/-- A call on the estimator of a grain, which works on the shared annotations. -/
def onGrain {β : Type} (L : StoreLens σ α) (op : Op (Est σ) β) (e : Est σ) (maps : AnnotationMaps α) :
    Except Err β × Est σ × AnnotationMaps α :=
  match op { e with inner := L.set maps e.inner } with
  | (r, e') => (r, e', L.get e'.inner)

/-- Finding or making the estimator of a grain (GrainFeaturizerImpl.h 736–748). -/
def GrainEst.estimator [LinearOrder K] (h : Hooks σ ι T) (L : StoreLens σ α) (c : GrainConfig K σ α) (k : K) :
    Op (GrainEst K σ α) (Est σ) := fun g =>
  match g.estimators.find? k with
  | some e => (.ok e, g)
  | none =>
    match onGrain L (Est.beginTraining h) (Est.new c.fresh) g.maps with
    | (.error x, e, maps) => (.error x, { g with estimators := g.estimators.set k e, maps := maps })
    | (.ok (), e, maps) => (.ok e, { g with estimators := g.estimators.set k e, maps := maps })

/-- One round of the loop of `fit_impl` (GrainFeaturizerImpl.h 735–762). -/
def GrainEst.fitOne [LinearOrder K] (h : Hooks σ ι T) (L : StoreLens σ α) (c : GrainConfig K σ α) (x : K × ι) :
    Op (GrainEst K σ α) Unit := fun g =>
  match GrainEst.estimator h L c x.1 g with
  | (.error err, g) => (.error err, g)
  | (.ok e, g) =>
    if e.state = .training then
      match onGrain L (Est.fit h (some [x.2])) e g.maps with
      | (.error err, e, maps) => (.error err, { g with estimators := g.estimators.set x.1 e, maps := maps })
      | (.ok .reset, e, maps) => (.error .runtimeError, { g with estimators := g.estimators.set x.1 e, maps := maps })
      | (.ok _, e, maps) => (.ok (), { g with estimators := g.estimators.set x.1 e, maps := maps })
    else (.ok (), g)

/-- The loop of `fit_impl`. -/
def GrainEst.fitAll [LinearOrder K] (h : Hooks σ ι T) (L : StoreLens σ α) (c : GrainConfig K σ α) :
    List (K × ι) → Op (GrainEst K σ α) Unit
  | [], g => (.ok (), g)
  | x :: xs, g =>
    match GrainEst.fitOne h L c x g with
    | (.error e, g) => (.error e, g)
    | (.ok (), g) => GrainEst.fitAll h L c xs g

/-- What `complete_training_impl` builds up: the annotations, `newAnnotations`, `colIndex` and `addedNewAnnotation`
(GrainFeaturizerImpl.h 805–811). -/
structure GrainScan (K α : Type) [LinearOrder K] where
  maps : AnnotationMaps α
  found : OMap K α
  col : Nat
  added : Bool

/-- The loop over the columns after one estimator was completed (GrainFeaturizerImpl.h 813–851), starting at column `i`
with the remaining recorded sizes.  A failed assertion counts as undefined. -/
def scanColumns [LinearOrder K] (name : String) (k : K) : List Nat → Nat → Op (GrainScan K α) Unit
  | [], _, s => (.ok (), s)
  | size :: sizes, i, s =>
    let column := s.maps.getD i []
    if column.length ≠ size then
      if column.length ≠ size + 1 then (.error .ub, s)
      else if s.added then (.error .runtimeError, s)
      else if s.found.entries.length ≠ 0 ∧ s.col ≠ i then (.error .runtimeError, s)
      else
        match column.find? (fun e => e.1 == name) with
        | none => (.error .runtimeError, { s with col := i })
        | some (_, [a]) =>
          scanColumns name k sizes (i + 1)
            ⟨s.maps.set i (column.filter fun e => !(e.1 == name)), s.found.emplace k a, i, true⟩
        | some _ => (.error .runtimeError, { s with col := i })
    else scanColumns name k sizes (i + 1) s

/-- The loop over the grains (GrainFeaturizerImpl.h 808–852): `es` are the estimators not yet completed, `g.maps` the
annotations. -/
def completeGrains [LinearOrder K] (h : Hooks σ ι T) (L : StoreLens σ α) (c : GrainConfig K σ α) (sizes : List Nat) :
    List (K × Est σ) → GrainEst K σ α → OMap K α → Nat → Except Err (OMap K α × Nat) × GrainEst K σ α
  | [], g, found, col => (.ok (found, col), g)
  | (k, e) :: es, g, found, col =>
    match onGrain L (Est.completeTraining h) e g.maps with
    | (.error x, e, maps) => (.error x, { g with estimators := g.estimators.set k e, maps := maps })
    | (.ok (), e, maps) =>
      match scanColumns c.name k sizes 0 ⟨maps, found, col, false⟩ with
      | (.error x, s) => (.error x, { g with estimators := g.estimators.set k e, maps := s.maps })
      | (.ok (), s) =>
        completeGrains h L c sizes es { g with estimators := g.estimators.set k e, maps := s.maps } s.found s.col

/-- The loop of `create_transformer_impl` (GrainFeaturizerImpl.h 455–456). -/
def createGrains [LinearOrder K] (h : Hooks σ ι T) (L : StoreLens σ α) :
    List (K × Est σ) → GrainEst K σ α → OMap K T → Except Err (OMap K T) × GrainEst K σ α
  | [], g, m => (.ok m, g)
  | (k, e) :: es, g, m =>
    match onGrain L (Est.createTransformer h) e g.maps with
    | (.error x, e, maps) => (.error x, { g with estimators := g.estimators.set k e, maps := maps })
    | (.ok t, e, maps) =>
      createGrains h L es { g with estimators := g.estimators.set k e, maps := maps } (m.emplace k t)

/-- The virtual functions of `GrainEstimatorImpl`; `createFunc` is `_createTransformerFunc`. -/
def grainHooks [LinearOrder K] (h : Hooks σ ι T) (L : StoreLens σ α) (c : GrainConfig K σ α)
    (createFunc : Option (Except Err T)) : Hooks (GrainEst K σ α) (K × ι) (GrainTransformer K T) where
  /- `begin_training_impl` (GrainFeaturizerImpl.h 725–728). -/
  begin g := (.ok (!c.inferenceOnly && g.remaining != 0), g)
  /- `fit_impl` (GrainFeaturizerImpl.h 730–767). -/
  fit items g :=
    let n := min g.remaining items.length
    match GrainEst.fitAll h L c (items.take n) g with
    | (.error e, g) => (.error e, g)
    | (.ok (), g) =>
      let g := { g with remaining := g.remaining - n }
      (.ok (if g.remaining ≠ 0 then .continue else .complete), g)
  /- Not overridden (Featurizer.h 826–830). -/
  onDataCompleted g := (.ok true, g)
  /- `complete_training_impl` (GrainFeaturizerImpl.h 770–857). -/
  complete g :=
    match completeGrains h L c (g.maps.map List.length) g.estimators.entries g .empty 0 with
    | (.error e, g) => (.error e, g)
    | (.ok (found, col), g) =>
      if found.entries.length ≠ 0 then
        match addAnnotation (some (c.wrap found)) col ("Grain" ++ c.name) g.maps with
        | (r, maps) => (r, { g with maps := maps })
      else (.ok (), g)
  /- `create_transformer_impl` (GrainFeaturizerImpl.h 452–469). -/
  create g :=
    match createGrains h L g.estimators.entries g .empty with
    | (.error e, g) => (.error e, g)
    | (.ok m, g) =>
      if m.entries.length = 0 then
        if createFunc.isNone then (.error .runtimeError, g)
        else match GrainTransformer.newCreate createFunc with
          | .error e => (.error e, g)
          | .ok t => (.ok (some t), g)
      else match GrainTransformer.newMap m createFunc with
        | .error e => (.error e, g)
        | .ok t => (.ok (some t), g)

/-- A new grain estimator (GrainFeaturizerImpl.h 682–702); `cap` is `MaxNumTrainingItems`. -/
def GrainEst.new [LinearOrder K] (maps : AnnotationMaps α) (cap : Nat) : Est (GrainEst K σ α) :=
  .new ⟨maps, .empty, cap⟩

end Feat
