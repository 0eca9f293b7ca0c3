import Mathlib.Algebra.Field.Defs
import Verif.Model.Numeric
import Verif.Model.Pipeline
import Verif.Model.TimeSeriesImputer
/-
Model of the training side of the time series imputer: Components/TimeSeriesMedianEstimator.h, the estimator of
Components/TimeSeriesImputerTransformer.h and the pipeline of TimeSeriesImputerFeaturizer.h.

Numbers (`double`) are of an arbitrary type `D` with the three operations that are used, `TsNum`: a field, or the bit patterns
of floating point numbers (Model/FloatTimeSeries).  The row counters (`int64_t`) do not overflow.  Texts are of an arbitrary type `S`; `parse` is `Traits<double>::FromString`, which
may throw, and `text` is `Traits<double>::ToString`.
-/
namespace Feat
variable {K S D T G V σ ι : Type}

/-- `0.0`, `+=` and `/=` by a count (TimeSeriesMedianEstimator.h 153, 161, 180). -/
class TsNum (D : Type) where
  zero : D
  plus : D → D → D
  over : D → Int → D

instance (priority := low) [Field D] : TsNum D := ⟨0, (· + ·), fun a n => a / (n : D)⟩

/-- The annotations of the two components: `TimeSeriesFrequencyAnnotation` (TimeSeriesFrequencyEstimator.h 22–49),
`TimeSeriesMedianAnnotation` (TimeSeriesMedianEstimator.h 22–49). -/
inductive TsAnnotation (K D : Type) [LinearOrder K] where
  | frequency (f : Int)
  | medians (m : OMap K (List D))

/-- The members of `TimeSeriesMedianEstimator` (TimeSeriesMedianEstimator.h 85–91) that change, and the shared
annotations. -/
structure TsMedian (K D α : Type) [LinearOrder K] where
  maps : AnnotationMaps α
  sums : OMap K (List D)
  counts : OMap K (List Int)

/-- A new estimator (TimeSeriesMedianEstimator.h 128–131). -/
def TsMedian.new [LinearOrder K] {α : Type} (maps : AnnotationMaps α) : Est (TsMedian K D α) :=
  Est.new ⟨maps, .empty, .empty⟩

/-- `tracker[key][i] += …`: the key is present; an index beyond the end of the vector is undefined behaviour
(`none`). -/
def bump [LinearOrder K] {A : Type} (m : OMap K (List A)) (key : K) (i : Nat) (f : A → A) :
    Option (OMap K (List A)) :=
  match m.find? key with
  | none => none
  | some l =>
    match l[i]? with
    | none => none
    | some a => some (m.set key (l.set i (f a)))

/-- The loop of `fit_impl` over the cells of one row, from index `i` (TimeSeriesMedianEstimator.h 157–163).  The type
of a column is only read if the cell is not null. -/
def TsMedian.cells [LinearOrder K] [TsNum D] {α : Type} (parse : S → Except Err D) (types : List UInt32) (key : K) :
    Nat → List (Option S) → TsMedian K D α → Except Err Unit × TsMedian K D α
  | _, [], s => (.ok (), s)
  | i, none :: cells, s => TsMedian.cells parse types key (i + 1) cells s
  | i, some v :: cells, s =>
    match types[i]? with
    | none => (.error .ub, s)
    | some ty =>
      if supportsMedian ty = false then TsMedian.cells parse types key (i + 1) cells s
      else match parse v with
        | .error e => (.error e, s)
        | .ok d =>
          match bump s.sums key i (TsNum.plus · d), bump s.counts key i (· + 1) with
          | some sums, some counts =>
            TsMedian.cells parse types key (i + 1) cells { s with sums := sums, counts := counts }
          | _, _ => (.error .ub, s)

/-- One iteration of the loop of `fit_impl` (TimeSeriesMedianEstimator.h 147–164). -/
def TsMedian.step [LinearOrder K] [TsNum D] {α : Type} (parse : S → Except Err D) (types : List UInt32) (x : TsIn K S)
    (s : TsMedian K D α) : Except Err Unit × TsMedian K D α :=
  TsMedian.cells parse types x.key 0 x.cells
    (match s.sums.find? x.key with
    | none => { s with
        sums := s.sums.set x.key (List.replicate x.cells.length TsNum.zero)
        counts := s.counts.set x.key (List.replicate x.cells.length 0) }
    | some _ => s)

/-- The loop of `fit_impl` (TimeSeriesMedianEstimator.h 147–164). -/
def TsMedian.run [LinearOrder K] [TsNum D] {α : Type} (parse : S → Except Err D) (types : List UInt32) :
    List (TsIn K S) → TsMedian K D α → Except Err Unit × TsMedian K D α
  | [], s => (.ok (), s)
  | x :: xs, s =>
    match TsMedian.step parse types x s with
    | (.ok (), s') => TsMedian.run parse types xs s'
    | (.error e, s') => (.error e, s')

/-- The inner loop of `complete_training_impl` (TimeSeriesMedianEstimator.h 174–181); types, sums and counts are
consumed together. -/
def completeColumns [TsNum D] : List UInt32 → List D → List Int → Except Err (List D)
  | _, [], _ => .ok []
  | [], _ :: _, _ => .error .ub
  | _ :: _, _ :: _, [] => .error .ub
  | ty :: types, a :: sums, n :: counts =>
    if supportsMedian ty = false then
      match completeColumns types sums counts with
      | .error e => .error e
      | .ok l => .ok (a :: l)
    else if n = 0 then .error .runtimeError
    else
      match completeColumns types sums counts with
      | .error e => .error e
      | .ok l => .ok (TsNum.over a n :: l)

/-- The outer loop of `complete_training_impl` (TimeSeriesMedianEstimator.h 172–182) over the entries of the map in
order. -/
def completeKeys [LinearOrder K] [TsNum D] (types : List UInt32) (counts : OMap K (List Int)) :
    List (K × List D) → Except Err (List (K × List D))
  | [] => .ok []
  | (k, l) :: rest =>
    match completeColumns types l ((counts.find? k).getD []) with
    | .error e => .error e
    | .ok l' =>
      match completeKeys types counts rest with
      | .error e => .error e
      | .ok rest' => .ok ((k, l') :: rest')

/-- The loop changes values only. -/
theorem completeKeys_keys [LinearOrder K] [TsNum D] (types : List UInt32) (counts : OMap K (List Int))
    (l l' : List (K × List D)) (h : completeKeys types counts l = .ok l') : l'.map (·.1) = l.map (·.1) := by
  induction l generalizing l' with
  | nil => cases h; rfl
  | cons e rest ih =>
    obtain ⟨k, v⟩ := e
    unfold completeKeys at h
    split at h
    · cases h
    · split at h
      · cases h
      · rename_i h2
        cases h
        simp [ih _ h2]

/-- The loops of `complete_training_impl` over the map (TimeSeriesMedianEstimator.h 172–182).  On an exception the
divisions already made are lost here (in the code they remain, and the exception repeats). -/
def TsMedian.divide [LinearOrder K] [TsNum D] (types : List UInt32) (counts : OMap K (List Int))
    (sums : OMap K (List D)) : Except Err (OMap K (List D)) :=
  match h : completeKeys types counts sums.entries with
  | .error e => .error e
  | .ok l => .ok ⟨l, by
      have h1 := sums.sorted
      have h2 : (sums.entries.map (·.1)).Pairwise (· < ·) := by rw [List.pairwise_map]; exact h1
      rw [← completeKeys_keys types counts _ _ h, List.pairwise_map] at h2
      exact h2⟩

/-- The virtual functions of `TimeSeriesMedianEstimator` (TimeSeriesMedianEstimator.h 140–186); `wrap` makes the
annotation.  The tracker is moved into the annotation. -/
def tsMedianHooks [LinearOrder K] [TsNum D] {α : Type} (parse : S → Except Err D) (types : List UInt32)
    (wrap : OMap K (List D) → α) : Hooks (TsMedian K D α) (TsIn K S) Unit where
  begin s := (.ok true, s)
  fit rows s := match TsMedian.run parse types rows s with
    | (.ok (), s') => (.ok .continue, s')
    | (.error e, s') => (.error e, s')
  onDataCompleted s := (.ok true, s)
  complete s := match TsMedian.divide types s.counts s.sums with
    | .error e => (.error e, s)
    | .ok m =>
      match addAnnotation (some (wrap m)) 0 "TimeSeriesMedianEstimator" s.maps with
      | (r, maps) => (r, ⟨maps, .empty, .empty⟩)
  create s := (.ok none, s)

/-! ### The featurizer -/

/-- An estimator whose members are part of the state of the pipeline (`get`, `put`), reading a part of every row. -/
def partStage (get : G → σ) (put : σ → G → G) (read : V → ι) (h : Hooks σ ι Unit) : Stage G V T where
  hooks :=
    { begin := fun g => match h.begin (get g) with | (r, s) => (r, put s g)
      fit := fun items g => match h.fit (items.map read) (get g) with | (r, s) => (r, put s g)
      onDataCompleted := fun g => match h.onDataCompleted (get g) with | (r, s) => (r, put s g)
      complete := fun g => match h.complete (get g) with | (r, s) => (r, put s g)
      create := fun g => (.ok none, g) }
  isTransformer := false

/-- The state of the pipeline: the annotations and the private members of the two components. -/
structure TsState (K D : Type) [LinearOrder K] where
  maps : AnnotationMaps (TsAnnotation K D)
  tracker : K → Option Int
  minFrequency : Int
  sums : OMap K (List D)
  counts : OMap K (List Int)

/-- `TimeSeriesFrequencyEstimator` as a stage of the pipeline (TimeSeriesImputerFeaturizer.h 58). -/
def tsFrequencyStage [LinearOrder K] : Stage (TsState K D) (TsIn K S) T :=
  partStage (fun g => (⟨g.maps, g.tracker, g.minFrequency⟩ : TsFrequency K (TsAnnotation K D)))
    (fun s g => { g with maps := s.maps, tracker := s.tracker, minFrequency := s.minFrequency })
    (fun x => (x.time, x.key)) (tsFrequencyHooks .frequency)

/-- `TimeSeriesMedianEstimator` as a stage of the pipeline (TimeSeriesImputerFeaturizer.h 59). -/
def tsMedianStage [LinearOrder K] [TsNum D] (parse : S → Except Err D) (types : List UInt32) :
    Stage (TsState K D) (TsIn K S) T :=
  partStage (fun g => (⟨g.maps, g.sums, g.counts⟩ : TsMedian K D (TsAnnotation K D)))
    (fun s g => { g with maps := s.maps, sums := s.sums, counts := s.counts })
    (fun x => x) (tsMedianHooks parse types .medians)

/-- `annotations.find(name)` in column 0, an exception if there is nothing, `second[0]` otherwise
(TimeSeriesImputerTransformer.h 171–177). -/
def firstAnnotation {α : Type} (maps : AnnotationMaps α) (name : String) : Except Err α :=
  match maps with
  | [] => .error .ub
  | column :: _ =>
    match column.find? (fun e => e.1 == name) with
    | none => .error .runtimeError
    | some (_, []) => .error .ub
    | some (_, a :: _) => .ok a

/-- Convert the values of a map. -/
def OMap.mapValues [LinearOrder K] {A B : Type} (f : A → B) (m : OMap K A) : OMap K B :=
  ⟨m.entries.map fun e => (e.1, f e.2), by
    rw [List.pairwise_map]
    exact m.sorted⟩

/-- `create_transformer_impl` of the component estimator (TimeSeriesImputerTransformer.h 170–189) followed by the
constructor of the transformer.  A `static_cast` to the wrong type of annotation is undefined behaviour. -/
def tsImputerCreate [LinearOrder K] (text : D → S) (types : List UInt32) (strategy : TsStrategy) (suppress : Bool)
    (space : Nat) (maps : AnnotationMaps (TsAnnotation K D)) : Except Err (TsConfig K S) :=
  match firstAnnotation maps "TimeSeriesFrequencyEstimator" with
  | .error e => .error e
  | .ok freq =>
    match firstAnnotation maps "TimeSeriesMedianEstimator" with
    | .error e => .error e
    | .ok med =>
      match freq, med with
      | .frequency f, .medians m => TsConfig.check ⟨f, types, strategy, m.mapValues (List.map text), suppress, space⟩
      | _, _ => .error .ub

/-- The component `TimeSeriesImputerEstimator` as the last stage (TimeSeriesImputerFeaturizer.h 60,
TimeSeriesImputerTransformer.h 163–237). -/
def tsImputerStage [LinearOrder K] (text : D → S) (types : List UInt32) (strategy : TsStrategy) (suppress : Bool)
    (space : Nat) : Stage (TsState K D) (TsIn K S) (TsConfig K S) where
  hooks :=
    { begin := fun g => (.ok false, g)
      fit := fun _ g => (.error .runtimeError, g)
      onDataCompleted := fun g => (.ok true, g)
      complete := fun g => (.ok (), g)
      create := fun g =>
        match tsImputerCreate text types strategy suppress space g.maps with
        | .ok t => (.ok (some t), g)
        | .error e => (.error e, g) }
  isTransformer := true

/-- The constructor of the featurizer (TimeSeriesImputerFeaturizer.h 55–62) with those of its components
(Featurizer.h 706–729; TimeSeriesImputerTransformer.h 207–230): at least one column of annotations; the median
strategy needs columns of floating point types, unless errors are suppressed. -/
def newTsImputer [LinearOrder K] [TsNum D] (parse : S → Except Err D) (text : D → S) (types : List UInt32)
    (strategy : TsStrategy) (suppress : Bool) (space : Nat) (maps : AnnotationMaps (TsAnnotation K D)) :
    Except Err (Est (List (Elem (TsState K D) (TsIn K S) (TsConfig K S)) × TsState K D)) :=
  if maps.isEmpty then .error .invalidArgument
  else if strategy = .median ∧ suppress = false ∧ types.any (fun ty => !supportsMedian ty) = true then
    .error .runtimeError
  else .ok (Est.new
    ([tsFrequencyStage, tsMedianStage parse types, tsImputerStage text types strategy suppress space].map Elem.new,
      ⟨maps, fun _ => none, durationMax, .empty, .empty⟩))

end Feat
