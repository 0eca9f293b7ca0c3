import Verif.Model.StringFeaturizers
import Verif.Props.FloatText
import Verif.Props.Text
import Verif.Props.DateText
import Verif.Props.RowFloats
/-
C56 for floating point numbers and dates.
-/
namespace Feat.StringFeaturizers
open Feat.RowCodec Feat.FloatText Feat.DateText

/-- The texts of two values are converted: to a string by one featurizer and back by the other, both made with
the same setting. -/
def roundTrip {T : Type} [TextTraits T] (N : NullTraits T) (empty : Bool) (x : T) : Except Err T := do
  let e ← makeTransformer N empty
  fromStringExec N e (← toStringExec N e x)

/-- For optional values this is the composition in `C56_round_trip`. -/
theorem optional_eq {T : Type} [TextTraits T] (empty : Bool) (x : Option T) :
    roundTrip NullTraits.optional empty x = fromStringTransform empty (stringTransform empty x) := by
  cases empty <;> cases x <;>
    simp [roundTrip, makeTransformer, toStringExec, fromStringExec, NullTraits.optional, stringTransform,
      fromStringTransform, bind, Except.bind]

/-- **C56** Types that are not nullable: the setting for null values is refused, otherwise the round trip is
that of the type's conversions. -/
theorem C56_not_nullable {T : Type} [TextTraits T] (x : T) :
    roundTrip NullTraits.plain true x = .error .invalidArgument ∧
    roundTrip NullTraits.plain false x = TextTraits.fromText (TextTraits.toText x) := ⟨rfl, rfl⟩

private theorem through {T : Type} [TextTraits T] (N : NullTraits T) (null : T) (hN : N.nullValue = some null)
    (ht : N.isNullableType = true) (h0 : ∀ y : T, TextTraits.fromText (T := T) [] ≠ .ok y) (empty : Bool) (x y : T)
    (hx : N.isNull x = false) (h : TextTraits.fromText (TextTraits.toText x) = .ok y) :
    roundTrip N empty x = TextTraits.fromText (TextTraits.toText x) := by
  have hne : TextTraits.toText x ≠ [] := fun he => h0 y (by rw [← he]; exact h)
  cases empty <;>
    simp [roundTrip, makeTransformer, toStringExec, fromStringExec, ht, hx, hN, bind, Except.bind, hne]

private theorem empty_text : ¬ StartsNumber [] := by
  intro h
  have := (C67_rejects []).1.1 (by rfl)
  exact this h

private theorem no32 (y : F32) : TextTraits.fromText (T := F32) [] ≠ .ok y := by
  rw [(C67_rejects []).1.2 empty_text]; simp

private theorem no64 (y : F64) : TextTraits.fromText (T := F64) [] ≠ .ok y := by
  rw [(C67_rejects []).2.2 empty_text]; simp

private theorem go32 (empty : Bool) (x y : F32) (hx : ¬ IsNaN x)
    (h : TextTraits.fromText (TextTraits.toText x) = .ok y) :
    roundTrip NullTraits.float empty x = TextTraits.fromText (TextTraits.toText x) :=
  through _ _ rfl rfl no32 empty x y (by
    show isNaN32 x = false
    rw [Bool.eq_false_iff, Ne, isNaN32_iff]; exact hx) h

private theorem go64 (empty : Bool) (x y : F64) (hx : ¬ IsNaN x)
    (h : TextTraits.fromText (TextTraits.toText x) = .ok y) :
    roundTrip NullTraits.double empty x = TextTraits.fromText (TextTraits.toText x) :=
  through _ _ rfl rfl no64 empty x y (by
    show isNaN64 x = false
    rw [Bool.eq_false_iff, Ne, isNaN64_iff]; exact hx) h

/-- **C56 (float)** Null stays null, infinities come back, and a finite number comes back as a finite number
with the same text: as itself exactly if it is the nearest number to some number of millionths. -/
theorem C56_float (empty : Bool) (x : F32) :
    (IsNaN x → ∃ y, roundTrip NullTraits.float empty x = .ok y ∧ IsNaN y) ∧
    (IsInf x → roundTrip NullTraits.float empty x = .ok x) ∧
    (Finite x → ∃ y, roundTrip NullTraits.float empty x = .ok y ∧ Finite y ∧
      TextTraits.toText y = TextTraits.toText x) ∧
    (Finite x → (roundTrip NullTraits.float empty x = .ok x ↔ ∃ z : ℤ, IsNearest ((z : ℚ) / 1000000) x)) := by
  refine ⟨fun h => ?_, fun h => ?_, fun h => ?_, fun h => ?_⟩
  · cases empty with
    | true =>
      refine ⟨⟨0x7FC00000⟩, ?_, (isNaN32_iff _).1 (by decide)⟩
      have : NullTraits.float.isNull x = true := (isNaN32_iff x).2 h
      simp [roundTrip, makeTransformer, toStringExec, fromStringExec, bind, Except.bind, this]
      simp [NullTraits.float]
    | false =>
      obtain ⟨y, h1, h2⟩ := (C67_nan.1 x h).2
      exact ⟨y, h1, h2⟩
  · have h1 := (C67_infinity.1 x h).2
    rw [go32 empty x x (fun hn => hn.2 h.2) h1, h1]
  · obtain ⟨y, h1, h2, h3⟩ := C67_stable.1 x h
    exact ⟨y, by rw [go32 empty x y (fun hn => h hn.1) h1, h1], h2, h3⟩
  · obtain ⟨y, h1, _⟩ := C67_stable.1 x h
    rw [go32 empty x y (fun hn => h hn.1) h1]
    exact C67_exact_iff.1 x h

/-- **C56 (double)** The same. -/
theorem C56_double (empty : Bool) (x : F64) :
    (IsNaN x → ∃ y, roundTrip NullTraits.double empty x = .ok y ∧ IsNaN y) ∧
    (IsInf x → roundTrip NullTraits.double empty x = .ok x) ∧
    (Finite x → ∃ y, roundTrip NullTraits.double empty x = .ok y ∧ Finite y ∧
      TextTraits.toText y = TextTraits.toText x) ∧
    (Finite x → (roundTrip NullTraits.double empty x = .ok x ↔ ∃ z : ℤ, IsNearest ((z : ℚ) / 1000000) x)) := by
  refine ⟨fun h => ?_, fun h => ?_, fun h => ?_, fun h => ?_⟩
  · cases empty with
    | true =>
      refine ⟨⟨0x7FF8000000000000⟩, ?_, (isNaN64_iff _).1 (by decide)⟩
      have : NullTraits.double.isNull x = true := (isNaN64_iff x).2 h
      simp [roundTrip, makeTransformer, toStringExec, fromStringExec, bind, Except.bind, this]
      simp [NullTraits.double]
    | false =>
      obtain ⟨y, h1, h2⟩ := (C67_nan.2 x h).2
      exact ⟨y, h1, h2⟩
  · have h1 := (C67_infinity.2 x h).2
    rw [go64 empty x x (fun hn => hn.2 h.2) h1, h1]
  · obtain ⟨y, h1, h2, h3⟩ := C67_stable.2 x h
    exact ⟨y, by rw [go64 empty x y (fun hn => h hn.1) h1, h1], h2, h3⟩
  · obtain ⟨y, h1, _⟩ := C67_stable.2 x h
    rw [go64 empty x y (fun hn => h hn.1) h1]
    exact C67_exact_iff.2 x h

/-- **C56 (dates)** Null stays null, and an instant from 1677-09-22 on comes back as the beginning of its
second; so instants on a whole second come back unchanged. -/
theorem C56_dates (empty : Bool) :
    roundTrip NullTraits.optional empty (none : Option (TimePoint perSec)) = .ok none ∧
    ∀ t : TimePoint perSec, -9223286400000000000 ≤ t.ticks.toInt →
      ∃ t' : TimePoint perSec, roundTrip NullTraits.optional empty (some t) = .ok (some t') ∧
        t'.ticks.toInt = t.ticks.toInt / 1000000000 * 1000000000 := by
  refine ⟨?_, fun t h => ?_⟩
  · rw [optional_eq]; cases empty <;> rfl
  · obtain ⟨t', h1, h2⟩ := C65_round_trip_nanoseconds t h
    have h3 : (TextTraits.fromText (TextTraits.toText t) : Except Err (TimePoint perSec)) = .ok t' := h1
    refine ⟨t', ?_, h2⟩
    rw [optional_eq]
    have hne : TextTraits.toText t ≠ [] := fun he => by
      rw [he] at h3
      exact absurd h3 (by intro hh; cases hh)
    have hnull : TextTraits.toText t ≠ [78, 85, 76, 76] := fun he => by
      rw [he] at h3
      exact absurd h3 (by intro hh; cases hh)
    have h4 : TextTraits.toText (some t) = TextTraits.toText t := rfl
    unfold fromStringTransform stringTransform
    simp only [Option.isNone_some, Bool.false_eq_true, and_false, if_false, h4, hne]
    show (if _ then _ else _) = _
    rw [if_neg hnull, h3]
    rfl

end Feat.StringFeaturizers
