import Verif.Model.Transformer
/-
Specification of C14: running data through the stages one complete stage at a time.
-/
namespace Feat
variable {T V : Type}

/-- The data that arrives at a stage: values, and then either the regular end of the data (`none`) or the
exception of an earlier stage. -/
structure Stream (V : Type) where
  items : List V
  fail : Option Err

/-- One stage consumes a whole stream: it is executed on every value; if the stream ends regularly, it is
flushed. -/
def Xf.pass (X : Xf T V V) (t : T) (s : Stream V) : Stream V × T :=
  match X.execAll t s.items with
  | ⟨outs, some e, t'⟩ => (⟨outs, some e⟩, t')
  | ⟨outs, none, t'⟩ =>
    match s.fail with
    | some e => (⟨outs, some e⟩, t')
    | none =>
      match X.flush t' with
      | ⟨outs', e, t''⟩ => (⟨outs ++ outs', e⟩, t'')

/-- All stages, one after the other; a stage that is not a transformer passes the stream on. -/
def stagewise (X : Xf T V V) : List (Option T) → Stream V → Stream V × List (Option T)
  | [], s => (s, [])
  | none :: ts, s =>
    match stagewise X ts s with
    | (s', ts') => (s', none :: ts')
  | some t :: ts, s =>
    match X.pass t s with
    | (s', t') =>
      match stagewise X ts s' with
      | (s'', ts') => (s'', some t' :: ts')

end Feat
