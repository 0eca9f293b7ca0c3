import Verif.Model.Grain
import Verif.Model.Windows
/-
The grained lag/lead operator and the grained rolling windows, as the C interface offers them: construction, training,
execution and archives of transformers with the rows they hold.
-/
namespace Feat
variable {A B V T I O K G α : Type}

/-! ### The transformers of one series -/

/-- The calculation of a rolling window (SimpleRollingWindowFeaturizer.h 195–208); `Min` is 1, `Max` is 2 (35–38).  Any
other number is taken as `Max`.  `min` and `max` are the two calculators (`minCalc`, `maxCalc`, and for numbers as bit
patterns those of Model/FloatWindows). -/
def simpleCalc (min max : List V → Except Err V) (code : UInt8) : List V → Except Err V :=
  if code = 1 then min else max

/-- The calculation of an analytical rolling window does not depend on the number (AnalyticalRollingWindowFeaturizer.h
192–202). -/
def analyticalCalc (mean : List V → Except Err B) (_code : UInt8) : List V → Except Err B := mean

/-- The buffer of a lag/lead operator, once its constant members are known (LagLeadOperatorFeaturizer.h 251–271). -/
def LagLead.ofParams (null : A) (p : LagLeadParams) : Except Err (LagLead A) :=
  match CBuf.new p.bufferSize with
  | .error e => .error e
  | .ok b => .ok (LagLead.init null ⟨p, b⟩)

/-- `save` and the archive constructor (LagLeadOperatorFeaturizer.h 274–321): the rows in the buffer are not archived. -/
def lagLeadAr (null : A) : ArClass :=
  ⟨LagLead A, fun t => lagLead.save t.params, lagLead.load >>= fun p => liftExcept (LagLead.ofParams null p)⟩

/-- The buffer of a rolling window (Base/RollingWindowTransformerBase.h 140–176). -/
def Rolling.ofParams (p : RollingParams) : Except Err (Rolling A) :=
  match CBuf.new p.capacity.toNat with
  | .error e => .error e
  | .ok b => .ok ⟨p, b⟩

/-- `save` and the archive constructor (SimpleRollingWindowFeaturizer.h 215–260; AnalyticalRollingWindowFeaturizer.h
204–249): the rows in the buffer are not archived. -/
def rollingAr (A : Type) : ArClass :=
  ⟨Rolling A, fun t => rollingWindow.save t.params, rollingWindow.load >>= fun p => liftExcept (Rolling.ofParams p)⟩

/-- A rolling window with the calculation that belongs to the number it stores (SimpleRollingWindowFeaturizer.h 195–213,
226–231). -/
def codedXf (agg : UInt8 → List A → Except Err B) : Xf (Rolling A) A (List (Option B)) where
  exec t x := t.exec (agg t.params.calculation) x
  flush t := (rollingXf (agg t.params.calculation)).flush t

/-! ### Estimators -/

/-- The checks of the constructor of `LagLeadOperatorEstimator` (LagLeadOperatorFeaturizer.h 387–410). -/
def lagLeadArgs (horizon : UInt32) (deltas : List Int64) : Except Err Unit :=
  if horizon.toNat = 0 then .error .invalidArgument
  else if deltas.isEmpty then .error .invalidArgument
  else .ok ()

/-- The checks of the constructors of the rolling window estimators (SimpleRollingWindowFeaturizer.h 266–303;
AnalyticalRollingWindowFeaturizer.h 255–292). -/
def rollingArgs (horizon maxWindow minWindow : UInt32) : Except Err Unit :=
  if horizon.toNat < 1 then .error .invalidArgument
  else if maxWindow.toNat < 1 then .error .invalidArgument
  else if minWindow.toNat < 1 then .error .invalidArgument
  else if minWindow.toNat > maxWindow.toNat then .error .invalidArgument
  else .ok ()

/-- The virtual functions of these estimators (LagLeadOperatorFeaturizer.h 154–165, 412–425;
SimpleRollingWindowFeaturizer.h 125–137, 305–318; AnalyticalRollingWindowFeaturizer.h 294–307): nothing is trained.
`make` is what the constructor of the transformer gives. -/
def windowHooks (make : Except Err T) : Hooks (AnnotationMaps α) I T where
  begin s := (.ok false, s)
  fit _ s := (.error .runtimeError, s)
  onDataCompleted s := (.ok true, s)
  complete s := (.ok (), s)
  create s := match make with
    | .error e => (.error e, s)
    | .ok t => (.ok (some t), s)

/-- The constructors of the grained estimators (LagLeadOperatorFeaturizer.h 438–459; SimpleRollingWindowFeaturizer.h
325–358; AnalyticalRollingWindowFeaturizer.h 315–348).  To find its name the grain estimator makes an estimator of one
series (Components/GrainFeaturizerImpl.h 684–697), so that the arguments are checked here. -/
def grainedNew [LinearOrder K] {σ : Type} (args : Except Err Unit) (maps : AnnotationMaps α) (cap : Nat) :
    Except Err (Est (GrainEst K σ α)) :=
  match args with
  | .error e => .error e
  | .ok () => .ok (GrainEst.new maps cap)

/-- The constant members: the estimators are made for inference only, and the function for new grains makes a transformer
(LagLeadOperatorFeaturizer.h 449–457; SimpleRollingWindowFeaturizer.h 341–351). -/
def grainedHooks [LinearOrder K] (L : StoreLens (AnnotationMaps α) α) (fresh : AnnotationMaps α) (name : String)
    (wrap : OMap K α → α) (make : Except Err T) :
    Hooks (GrainEst K (AnnotationMaps α) α) (K × I) (GrainTransformer K T) :=
  grainHooks (windowHooks make) L ⟨true, fresh, name, wrap⟩ (some make)

/-! ### The pipelines of the rolling windows -/

/-- Execution of the pipeline of the grain transformer and a `FilterDecoratorTransformer` for the second component
(SimpleRollingWindowFeaturizer.h 158–163; Components/FilterDecoratorFeaturizer.h 63–65): the grain is dropped. -/
def valuesOnly (X : Xf G I (K × O)) : Xf G I O where
  exec g x := ⟨(X.exec g x).outs.map (·.2), (X.exec g x).err, (X.exec g x).next⟩
  flush g := ⟨(X.flush g).outs.map (·.2), (X.flush g).err, (X.flush g).next⟩

/-- `save` of this pipeline: the decorator, which is a version, comes first (Details 1015–1018; `chainSave`). -/
def pipelineSave [LinearOrder K] [Traits K] (c : ArClass) (g : GrainTransformer K c.Obj) : M Archive Unit :=
  (pipelineAr [some ⟨GrainTransformer K c.Obj, GrainTransformer.save c, GrainTransformer.load c 0⟩,
    some inferenceOnly.ar]).save (g, ((), ()))

/-- Its archive constructor (Details 1005–1008; `chainLoad`); of the result only the grain transformer is kept here, since
the decorator has no members. -/
def pipelineLoad [LinearOrder K] [Traits K] (c : ArClass) (base' : Nat) : M Archive (GrainTransformer K c.Obj) :=
  (pipelineAr [some ⟨GrainTransformer K c.Obj, GrainTransformer.save c, GrainTransformer.load c base'⟩,
    some inferenceOnly.ar]).load >>= fun t => pure t.1

end Feat
