import Verif.Model.Basic
/-
Model of transformers as seen through their public calls (Featurizer.h 525–573): `execute` and `flush`
with a callback.
-/
namespace Feat

/-- What a call with a callback did: the values passed to the callback, in order; the exception it ended
with, if any; and the state of the object afterwards. -/
structure Run (T O : Type) where
  outs : List O
  err : Option Err
  next : T

/-- A class of transformer objects with state `T`, input `I` and output `O`: `execute_impl` and
`flush_impl`.  Arbitrary.  `Transformer::execute` and `flush` (Featurizer.h 559–573) refuse an empty
callback (see `PXf.public` in Model/ExecuteValue) and otherwise only forward. -/
structure Xf (T I O : Type) where
  exec : T → I → Run T O
  flush : T → Run T O

variable {T I O : Type}

/-- `execute` on each item of a range, in order, with the same callback; stops at an exception. -/
def Xf.execAll (X : Xf T I O) : T → List I → Run T O
  | t, [] => ⟨[], none, t⟩
  | t, x :: xs =>
    match X.exec t x with
    | ⟨outs, some e, t'⟩ => ⟨outs, some e, t'⟩
    | ⟨outs, none, t'⟩ =>
      match X.execAll t' xs with
      | ⟨outs', e, t''⟩ => ⟨outs ++ outs', e, t''⟩

/-- Execute on all items, then flush. -/
def Xf.runAll (X : Xf T I O) (t : T) (xs : List I) : Run T O :=
  match X.execAll t xs with
  | ⟨outs, some e, t'⟩ => ⟨outs, some e, t'⟩
  | ⟨outs, none, t'⟩ =>
    match X.flush t' with
    | ⟨outs', e, t''⟩ => ⟨outs ++ outs', e, t''⟩

/-- The default `flush_impl` (Featurizer.h 566–573: the base class calls `flush_impl`, whose default does
nothing). -/
def noFlush (t : T) : Run T O := ⟨[], none, t⟩

/-- A transformer that emits exactly one value per input and keeps no state
(StandardTransformer, Components/…: `callback(value)` once). -/
def Xf.ofFun (f : T → I → Except Err O) : Xf T I O where
  exec t x := match f t x with
    | .ok o => ⟨[o], none, t⟩
    | .error e => ⟨[], some e, t⟩
  flush := noFlush

end Feat
