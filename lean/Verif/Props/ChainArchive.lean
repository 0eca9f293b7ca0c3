import Verif.Model.ChainArchive
import Verif.Props.Transformers
/-
C15: saved pipelines reload stage by stage.
-/
namespace Feat

/-- A transformer object survives saving and loading: what `save` writes, on any writing archive, is some
bytes, from which — on any host, wherever they stand — loading gives the same object, consuming exactly
these bytes, while loading from a proper prefix of them throws. -/
def RoundTrips (c : ArClass) (t : c.Obj) : Prop :=
  ∃ bs, Writes (c.save t) bs ∧ Reads c.load bs t ∧ Truncs c.load bs

/-- Every transformer of the chain survives. -/
def EachRoundTrips : (cs : List (Option ArClass)) → ChainObj cs → Prop
  | [], _ => True
  | none :: cs, t => EachRoundTrips cs t
  | some c :: cs, t => RoundTrips c t.1 ∧ EachRoundTrips cs t.2

/-- **C15** A pipeline of any length, all of whose transformers survive saving and loading, survives it:
the reloaded pipeline has the same transformers in the same positions, and exactly the saved bytes are
consumed. -/
theorem C15_pipeline (cs : List (Option ArClass)) (t : ChainObj cs) (h : EachRoundTrips cs t) :
    RoundTrips (pipelineAr cs) t := by
  induction cs with
  | nil => exact ⟨[], Writes.pure, Reads.pure _, Truncs.nil _⟩
  | cons c cs ih =>
    cases c with
    | none => exact ih t h
    | some c =>
      obtain ⟨⟨b1, w1, r1, t1⟩, h2⟩ := h
      obtain ⟨b2, w2, r2, t2⟩ := ih t.2 h2
      refine ⟨b2 ++ b1, Writes.bind w2 w1, ?_, ?_⟩
      · exact Reads.bind r2 (Reads.map (fun x => (x, t.2)) r1)
      · exact Truncs.bind r2 t2 (Truncs.map r1 t1)

/-- The transformers of the library survive (see `C08_reload_partial`). -/
theorem library_roundTrips (c : TClass) (hc : InLibrary c) (p : c.Params) (t : c.Obj)
    (hp : c.make p = .ok t) (hf : Fits.fits p) : RoundTrips c.ar t := by
  obtain ⟨L⟩ := lawful c hc
  obtain ⟨bs, h1, h2, h3⟩ := lawful_trip L p t hp hf
  exact ⟨bs, h1, h2, h3⟩

/-- Hypotheses met: a pipeline of a lag/lead operator, an estimator that is no transformer, an integer
min-max scaler and a nested pipeline holding a hash encoder. -/
example : RoundTrips
    (pipelineAr [some lagLead.ar, none, some (minMaxScaler Int8).ar, some (pipelineAr [some hashOneHot.ar])])
    (⟨4, 3, [0, 3, 5], 9⟩, ⟨-100, -56⟩, ((10, 7), ()), ()) := by
  apply C15_pipeline
  refine ⟨library_roundTrips _ .lagLead (4, [-3, 0, 2]) _ (by rfl) ⟨by decide, by decide +kernel⟩,
    library_roundTrips _ (.minMaxScaler Int8) (-100, 100) _ (by rfl) ⟨trivial, trivial⟩, ?_, trivial⟩
  exact C15_pipeline _ _ ⟨library_roundTrips _ .hashOneHot (10, 7) _ (by rfl) ⟨trivial, trivial⟩, trivial⟩

end Feat
