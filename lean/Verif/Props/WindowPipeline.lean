import Verif.Model.WindowPipeline
import Verif.Props.GrainedWindows
/-
C101: training and execution of the pipelines of the grained rolling windows; the estimators of one series.
-/
namespace Feat
variable {K T I O A B α : Type}

/-- **C101** The estimators of one series (lag/lead and rolling windows) need no training: whatever batches are offered, the
standard training gives what the constructor of the transformer gives, a transformer or an exception. -/
theorem C101_one_series (make : Except Err T) (maps : AnnotationMaps α) (batches : List (List I)) (fuel : Nat) :
    ∃ e', trainAndCreate (windowHooks make) batches (fuel + 1) (Est.new maps) = some (make, e') := by
  rcases batches with _ | ⟨b, bs⟩ <;> rcases make with x | t <;> exact ⟨_, rfl⟩

/-- **C101** The pipeline accepts exactly the arguments that the grain estimator accepts, and the standard training, whatever
batches are offered, gives the two transformers, with no series yet. -/
theorem C101_pipeline_training [LinearOrder K] (X : Xf T I O) (L : StoreLens (AnnotationMaps α) α) (fresh : AnnotationMaps α)
    (name : String) (wrap : OMap K α → α) (make : Except Err T) (args : Except Err Unit) (maps : AnnotationMaps α) (cap : Nat)
    (batches : List (List (WindowItem K I O))) (fuel : Nat) :
    (∀ x, args = .error x → windowPipeline (K := K) (I := I) (O := O) L fresh name wrap args make maps cap = .error x) ∧
    (args = .ok () → ∃ e e', windowPipeline L fresh name wrap args make maps cap = .ok e ∧
      trainAndCreate (Pipeline.hooks (windowXf X)) batches (fuel + 1) e
        = some (.ok [some (.grain ⟨false, some make, .empty⟩), some .decorator], e')) := by
  constructor
  · rintro x rfl; rfl
  · rintro rfl
    rcases batches with _ | ⟨b, bs⟩ <;> exact ⟨_, _, rfl, rfl⟩

private theorem decorated [LinearOrder K] (X : Xf T I O) (os : List (K × O)) :
    (Chain.xf (windowXf X) 1).execAll [some (WindowXf.decorator (K := K))] (os.map WindowItem.grained)
      = ⟨os.map fun o => .result o.2, none, [some .decorator]⟩ := by
  induction os with
  | nil => rfl
  | cons o os ih =>
    simp only [List.map_cons, Xf.execAll]
    have h1 : (Chain.xf (windowXf X) 1).exec [some (WindowXf.decorator (K := K))] (.grained o)
        = ⟨[.result o.2], none, [some .decorator]⟩ := rfl
    rw [h1]
    simp only [ih]
    rfl

/-- **C101** The trained pipeline executes a row as `valuesOnly` of the grain transformer does. -/
theorem C101_pipeline_exec [LinearOrder K] (X : Xf T I O) (g : GrainTransformer K T) (x : K × I) :
    (Chain.xf (windowXf X) 2).exec [some (.grain g), some .decorator] (.row x)
      = ⟨((valuesOnly (grainXf X)).exec g x).outs.map .result, ((valuesOnly (grainXf X)).exec g x).err,
        [some (.grain ((valuesOnly (grainXf X)).exec g x).next), some .decorator]⟩ := by
  rcases h : (grainXf X).exec g x with ⟨outs, e, g'⟩
  have hw : (windowXf X).exec (.grain g) (.row x) = ⟨outs.map .grained, e, .grain g'⟩ := by
    simp only [windowXf, h]
  rw [Chain.xf]
  simp only [hw, decorated X outs, valuesOnly, h, List.map_map]
  rfl

/-- **C101** It flushes as `valuesOnly` of the grain transformer does. -/
theorem C101_pipeline_flush [LinearOrder K] (X : Xf T I O) (g : GrainTransformer K T) :
    (Chain.xf (windowXf X) 2).flush [some (.grain g), some .decorator]
      = ⟨((valuesOnly (grainXf X)).flush g).outs.map .result, ((valuesOnly (grainXf X)).flush g).err,
        [some (.grain ((valuesOnly (grainXf X)).flush g).next), some .decorator]⟩ := by
  · rcases h : (grainXf X).flush g with ⟨outs, e, g'⟩
    have hw : (windowXf X).flush (.grain g) = ⟨outs.map .grained, e, .grain g'⟩ := by
      simp only [windowXf, h]
    rw [Chain.xf]
    simp only [hw, decorated X outs, valuesOnly, h, List.map_map]
    rcases e with _ | e
    · have : (Chain.xf (windowXf X) 1).flush [some (WindowXf.decorator (K := K))] = ⟨[], none, [some .decorator]⟩ := rfl
      simp only [this, List.append_nil]
      rfl
    · rfl

/-- **C101** So for any number of rows: the outputs, the exception, if any, and the state of the grain transformer afterwards are
those of `valuesOnly`. -/
theorem C101_pipeline_rows [LinearOrder K] (X : Xf T I O) (g : GrainTransformer K T) (xs : List (K × I)) :
    (Chain.xf (windowXf X) 2).runAll [some (.grain g), some .decorator] (xs.map .row)
      = ⟨((valuesOnly (grainXf X)).runAll g xs).outs.map .result, ((valuesOnly (grainXf X)).runAll g xs).err,
        [some (.grain ((valuesOnly (grainXf X)).runAll g xs).next), some .decorator]⟩ := by
  have hexec : ∀ g, (Chain.xf (windowXf X) 2).execAll [some (.grain g), some .decorator] (xs.map .row)
      = ⟨((valuesOnly (grainXf X)).execAll g xs).outs.map .result, ((valuesOnly (grainXf X)).execAll g xs).err,
        [some (.grain ((valuesOnly (grainXf X)).execAll g xs).next), some .decorator]⟩ := by
    induction xs with
    | nil => intro g; rfl
    | cons x xs ih =>
      intro g
      simp only [List.map_cons, Xf.execAll, C101_pipeline_exec X g x]
      rcases (valuesOnly (grainXf X)).exec g x with ⟨outs, e, g'⟩
      rcases e with _ | e
      · simp only [ih g', List.map_append]
      · rfl
  simp only [Xf.runAll, hexec g]
  rcases (valuesOnly (grainXf X)).execAll g xs with ⟨outs, e, g'⟩
  rcases e with _ | e
  · simp only [C101_pipeline_flush X g', List.map_append]
  · rfl

/-- A concrete pipeline: minima of two rows; the rows 5, 3 and 4 of series 7, between rows of series 8. -/
private def minPipeline := windowPipeline (K := Nat) (I := Int) (O := List (Option Int))
  (⟨id, fun m _ => m⟩ : StoreLens (AnnotationMaps Unit) Unit) [[]] "SimpleRollingWindow" (fun _ => ()) (rollingArgs 1 2 1)
  (Rolling.new (A := Int) 1 1 2 1) [[]] 5

example : minPipeline.toOption.isSome = true := by decide +kernel

/-- The results in the outputs. -/
private def results (r : Run (List (Option (WindowXf Nat (Rolling Int)))) (WindowItem Nat Int (List (Option Int)))) :
    List (List (Option Int)) :=
  r.outs.filterMap fun | .result o => some o | _ => Option.none

example : results ((Chain.xf (windowXf (codedXf fun _ w => .ok (w.foldl min 1000))) 2).runAll
    [some (.grain ⟨false, some (Rolling.new 1 1 2 1), .empty⟩), some .decorator]
    ([(7, 5), (8, 9), (7, 3), (7, 4), (8, 2)].map .row)) = [[Option.none], [Option.none], [some 5], [some 3], [some 9]] := by
  decide +kernel

end Feat
