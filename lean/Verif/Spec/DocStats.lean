import Verif.Model.DocStats
/-
Specification of document statistics: document frequency and the pruned vocabulary.
-/
namespace Feat
variable {F : Type}

/-- The terms of a document: its tokens, decorated (turned into lower case) if that is asked for. -/
def DocConfig.termsOf (c : DocConfig F) (doc : Str) : List Str :=
  match c.text.tokens doc with
  | .ok ts => ts.map (c.decorator.getD id)
  | .error _ => []

/-- The number of documents that contain a term at least once. -/
def docFreq (c : DocConfig F) (docs : List Str) (t : Str) : Nat := docs.countP fun d => decide (t ∈ c.termsOf d)

/-- What the vocabulary selected from the terms with document frequency `df ≥ 1` has to be, where `within` says that the
frequency is within the bounds: only terms within the bounds; at most `k` terms if there is a limit `k`; a term within the
bounds is left out only if there are `k` others and each of them is more frequent, or as frequent and smaller. -/
structure IsVocabulary (df : Str → Nat) (within : Str → Prop) (limit : Option Nat) (vocab : List Str) : Prop where
  nodup : vocab.Nodup
  only : ∀ t ∈ vocab, 1 ≤ df t ∧ within t
  size : ∀ k, limit = some k → vocab.length ≤ k
  dropped : ∀ t, 1 ≤ df t → within t → t ∉ vocab →
    ∃ k, limit = some k ∧ vocab.length = k ∧ ∀ a ∈ vocab, df t < df a ∨ (df t = df a ∧ a < t)

end Feat
