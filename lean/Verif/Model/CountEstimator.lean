import Verif.Model.Vectorizer
import Verif.Model.ComponentPipeline
/-
Model of CountVectorizerEstimator (CountVectorizerFeaturizer.h 62–221): an estimator that owns another estimator, the tf-idf
estimator, and passes its calls on.
-/
namespace Feat
variable {σ ι τ τ' : Type}

/-- The virtual functions of `CountVectorizerEstimator` for any estimator in the place of the tf-idf estimator; its state is
that estimator, with its own training state (CountVectorizerFeaturizer.h 112–141, 199–216).  `wrap` is the construction of
the `CountVectorizerTransformer` around the transformer of the inner estimator. -/
def wrapHooks (h : Hooks σ ι τ) (wrap : τ → τ') : Hooks (Est σ) ι τ' where
  /- `begin_training_impl` (203–206): passes the call on and returns true. -/
  begin := fun e =>
    match Est.beginTraining h e with
    | (.error x, e) => (.error x, e)
    | (.ok (), e) => (.ok true, e)
  /- `fit_impl` (125–127). -/
  fit := fun items e => Est.fit h (some items) e
  /- Not overridden: the default (Featurizer.h 826–830); the inner estimator is not told. -/
  onDataCompleted := fun e => (.ok true, e)
  /- `complete_training_impl` (209–211). -/
  complete := fun e => Est.completeTraining h e
  /- `create_transformer_impl` (132–135). -/
  create := fun e =>
    match Est.createTransformer h e with
    | (.error x, e) => (.error x, e)
    | (.ok t, e) => (.ok (some (wrap t)), e)

/-- `DocumentStatisticsEstimator` as a component of the tf-idf estimator (TfidfVectorizerFeaturizer.h 343–363). -/
def docStatsComponent {F : Type} (it : IterOrder Str UInt32) (nth : NthElement) (fl : FloatOps F)
    (c : DocConfig F) (col cap : Nat) : Component DocState Str DocStats :=
  ⟨docStatsPolicy it nth fl c, docStatsConfig col, cap, ⟨UMap.empty, 0⟩⟩

/-! ### The transformer -/

/-- What a `CountVectorizerTransformer` points to (CountVectorizerFeaturizer.h 48, CountVectorizerFeaturizer.cpp 17–29): the
pipeline transformer that the tf-idf estimator created, whose only transformer is the tf-idf transformer, or, after loading,
a tf-idf transformer. -/
inductive CountXf where
  | trained (t : Tfidf)
  | loaded (t : Tfidf)

/-- The tf-idf transformer. -/
def CountXf.tfidf : CountXf → Tfidf
  | .trained t => t
  | .loaded t => t

/-- `std::bad_cast`. -/
inductive BadCast where
  | badCast
  deriving DecidableEq

/-- `operator ==` (CountVectorizerFeaturizer.cpp 32–34): `dynamic_cast<TfidfVectorizerTransformer const &>` of both sides
throws for a pipeline transformer.  `eq` is `operator ==` of the tf-idf transformers. -/
def CountXf.equal (eq : Tfidf → Tfidf → Bool) : CountXf → CountXf → Except BadCast Bool
  | .loaded a, .loaded b => .ok (eq a b)
  | _, _ => .error .badCast

/-- `execute` (CountVectorizerFeaturizer.cpp 43–57); the pipeline transformer passes document and vector through. -/
def CountXf.execute (x : CountXf) (doc : Str) : Except Err (SparseVector UInt32) := countExecute x.tfidf doc

/-- The construction of the `CountVectorizerTransformer` (CountVectorizerFeaturizer.h 132–135) from the pipeline transformer,
which is a list of the stages' transformers in the model; `none` stands for a pipeline that does not end in a transformer,
which the C++ types exclude. -/
def wrapCount (ts : List (Option Tfidf)) : Option CountXf := ts.getLast?.join.map .trained

/-- The functions of `CountVectorizerEstimator`.  `X` executes a transformer during training, which never happens here. -/
def countHooks {G : Type} (X : Xf Tfidf Str Str) :
    Hooks (Est (List (Elem G Str Tfidf) × G)) Str (Option CountXf) :=
  wrapHooks (Pipeline.hooks X) wrapCount

/-- A new `CountVectorizerEstimator` (CountVectorizerFeaturizer.h 158–197) on existing annotations. -/
def newCountEstimator {F : Type} (it : IterOrder Str UInt32) (nth : NthElement) (fl : FloatOps F)
    (c : DocConfig F) (binary lowercase : Bool) (col cap : Nat) (maps : AnnotationMaps DocStats) :
    Est (Est (List (Elem (CompState DocStats fun _ => DocState) Str Tfidf) × CompState DocStats fun _ => DocState)) :=
  Est.new (newFeaturizer (fun _ => docStatsComponent it nth fl c col cap) 1 (makeCountTfidf binary lowercase c.text col) maps)

end Feat
