import Verif.Model.CStrings
import Verif.Props.DeployableInference
import Verif.Props.Text
/-
**C105**, **C106** for the conversions from and to text.
-/
namespace Feat.CApi
open StringFeaturizers

theorem conversion_trips {nullable empty : Bool} (he : empty = true → nullable = true) : RoundTrips (stringConversion nullable).ar empty :=
  library_roundTrips (stringConversion nullable) (.stringConversion nullable) empty empty (by
    cases empty
    · rfl
    · rw [he rfl]; rfl) trivial

theorem to_text_made {T : Type} [TextTraits T] {N : NullTraits T} {empty : Bool} (he : empty = true → N.isNullableType = true) :
    toTextIn N empty = fun host space place => inferenceIn (ι := T) (O := List UInt8) (stringConversion N.isNullableType).ar
      (Xf.ofFun fun (e : Bool) x => toStringExec N e x) (.ok empty) host space place := by
  have hm : makeTransformer N empty = .ok empty := if_neg fun h => by rw [he h.1] at h; exact absurd h.2 nofun
  funext host space place
  exact congrArg (fun m => inferenceIn (ι := T) (O := List UInt8) (stringConversion N.isNullableType).ar
    (Xf.ofFun fun (e : Bool) x => toStringExec N e x) m host space place) hm

theorem from_text_made {T : Type} [TextTraits T] {N : NullTraits T} {empty : Bool} (he : empty = true → N.isNullableType = true) :
    fromTextIn N empty = fun host space place => inferenceIn (ι := List UInt8) (O := T) (stringConversion N.isNullableType).ar
      (Xf.ofFun fun (e : Bool) s => fromStringExec N e s) (.ok empty) host space place := by
  have hm : makeTransformer N empty = .ok empty := if_neg fun h => by rw [he h.1] at h; exact absurd h.2 nofun
  funext host space place
  exact congrArg (fun m => inferenceIn (ι := List UInt8) (O := T) (stringConversion N.isNullableType).ar
    (Xf.ofFun fun (e : Bool) s => fromStringExec N e s) m host space place) hm

/-- **C105** (conversion to text) Both processes give the text of every value; if the setting for null values is on, the empty text
for a null. -/
theorem C105_to_text {T : Type} [TextTraits T] {N : NullTraits T} {empty : Bool} (he : empty = true → N.isNullableType = true)
    {bs : List (List T)} {host host' : Endian} {space space' : Nat} {place place' : List UInt8 → Nat}
    {qs₁ qs₂ : List (Ask T)} {as₁ as₂ : List (Option (List (List UInt8)))}
    (d : Deployment (toTextIn N empty host space place) (toTextIn N empty host' space' place')
      (fun b => Roomy space' (place' b) b.length) bs qs₁ as₁ qs₂ as₂) :
    as₁ = repliesOf (fun x => some [if empty = true ∧ N.isNull x = true then [] else TextTraits.toText x]) qs₁ ∧
    as₂ = repliesOf (fun x => some [if empty = true ∧ N.isNull x = true then [] else TextTraits.toText x]) qs₂ := by
  rw [to_text_made he] at d
  have h := C105_inference_function (c := (stringConversion N.isNullableType).ar) (O := List UInt8) (t := empty)
    (f := fun (e : Bool) x => toStringExec N e x) (conversion_trips he) d
  have hf : (fun x => ((toStringExec N empty x).toOption.map fun o => [o]))
      = fun x => some [if empty = true ∧ N.isNull x = true then [] else TextTraits.toText x] := by
    funext x
    cases empty
    · simp [toStringExec, Except.toOption]
    · by_cases hx : N.isNull x = true <;> simp [toStringExec, he rfl, hx, Except.toOption]
  exact ⟨h.1.trans (congrArg (fun g => repliesOf g qs₁) hf), h.2.trans (congrArg (fun g => repliesOf g qs₂) hf)⟩

/-- **C105** (conversion from text) Both processes give the value that the text is read as, or an error; if the setting for null
values is on, the null value for the empty text. -/
theorem C105_from_text {T : Type} [TextTraits T] {N : NullTraits T} {empty : Bool} (he : empty = true → N.isNullableType = true)
    {bs : List (List (List UInt8))} {host host' : Endian} {space space' : Nat} {place place' : List UInt8 → Nat}
    {qs₁ qs₂ : List (Ask (List UInt8))} {as₁ as₂ : List (Option (List T))}
    (d : Deployment (fromTextIn N empty host space place) (fromTextIn N empty host' space' place')
      (fun b => Roomy space' (place' b) b.length) bs qs₁ as₁ qs₂ as₂) :
    as₁ = repliesOf (fun s => (fromStringExec N empty s).toOption.map fun x => [x]) qs₁ ∧
    as₂ = repliesOf (fun s => (fromStringExec N empty s).toOption.map fun x => [x]) qs₂ := by
  rw [from_text_made he] at d
  exact C105_inference_function (c := (stringConversion N.isNullableType).ar) (O := T) (t := empty)
    (f := fun (e : Bool) s => fromStringExec N e s) (conversion_trips he) d

/-- **C105** A value of an integer type or a truth value goes through two deployed featurizers and comes back: where one of the
processes of the first gives a text for `x`, and a process of the second is asked this text, the answer is `x`. -/
theorem C105_there_and_back {T : Type} [TextTraits T] (hrt : ∀ x : T, TextTraits.fromText (TextTraits.toText x) = .ok x)
    {bs : List (List T)} {bs' : List (List (List UInt8))} {host host' host'' host''' : Endian} {space space' space'' space''' : Nat}
    {place place' place'' place''' : List UInt8 → Nat}
    {qs₁ qs₂ : List (Ask T)} {as₁ as₂ : List (Option (List (List UInt8)))} {qs₃ qs₄ : List (Ask (List UInt8))} {as₃ as₄ : List (Option (List T))}
    (d : Deployment (toTextIn NullTraits.plain false host space place) (toTextIn NullTraits.plain false host' space' place')
      (fun b => Roomy space' (place' b) b.length) bs qs₁ as₁ qs₂ as₂)
    (d' : Deployment (fromTextIn NullTraits.plain false host'' space'' place'') (fromTextIn NullTraits.plain false host''' space''' place''')
      (fun b => Roomy space''' (place''' b) b.length) bs' qs₃ as₃ qs₄ as₄)
    (i j : Nat) (x : T) (text : List UInt8) (hi : qs₂[i]? = some (.row x)) (ha : as₂[i]? = some (some [text]))
    (hj : qs₄[j]? = some (.row text)) : as₄[j]? = some (some [x]) := by
  obtain ⟨-, h2⟩ := C105_to_text (by simp) d
  obtain ⟨-, h4⟩ := C105_from_text (by simp) d'
  subst h2 h4
  simp only [repliesOf, List.getElem?_map, hi, Option.map_some, NullTraits.plain, Bool.false_eq_true, false_and, if_false,
    Option.some.injEq, List.cons.injEq, and_true] at ha
  subst ha
  simp [repliesOf, hj, fromStringExec, hrt, Except.toOption]

/-- **C106** (conversion to text) -/
theorem C106_to_text {T : Type} [TextTraits T] {N : NullTraits T} {empty : Bool} (he : empty = true → N.isNullableType = true)
    (bs : List (List T)) {host host' : Endian} {space space' : Nat} {place place' : List UInt8 → Nat} (behind : List UInt8)
    (hroom : ∀ b, Writes ((stringConversion N.isNullableType).ar.save empty) b → b ++ behind ≠ [] ∧
      Roomy space' (place' (b ++ behind)) (b ++ behind).length)
    (qs₁ qs₂ : List (Ask T)) (h₁ : qs₁.length < 2 ^ 63) (h₂ : qs₂.length < 2 ^ 63) :
    ∃ as₁ as₂, Deployment (toTextIn N empty host space place) (toTextIn N empty host' space' place')
      (fun b => Roomy space' (place' b) b.length) bs qs₁ as₁ qs₂ as₂ := by
  rw [to_text_made he]
  refine C106_inference_function (c := (stringConversion N.isNullableType).ar) (O := List UInt8) (t := empty)
    (f := fun (e : Bool) x => toStringExec N e x) bs (fun x => ?_) (conversion_trips he) behind hroom qs₁ qs₂ h₁ h₂
  cases empty
  · simp [toStringExec]
  · by_cases hx : N.isNull x = true <;> simp [toStringExec, he rfl, hx]

/-- **C106** (conversion from text) of a type whose conversion is defined for every text. -/
theorem C106_from_text {T : Type} [TextTraits T] {N : NullTraits T} {empty : Bool} (he : empty = true → N.isNullableType = true)
    (hub : ∀ s, (TextTraits.fromText s : Except Err T) ≠ .error .ub)
    (bs : List (List (List UInt8))) {host host' : Endian} {space space' : Nat} {place place' : List UInt8 → Nat} (behind : List UInt8)
    (hroom : ∀ b, Writes ((stringConversion N.isNullableType).ar.save empty) b → b ++ behind ≠ [] ∧
      Roomy space' (place' (b ++ behind)) (b ++ behind).length)
    (qs₁ qs₂ : List (Ask (List UInt8))) (h₁ : qs₁.length < 2 ^ 63) (h₂ : qs₂.length < 2 ^ 63) :
    ∃ as₁ as₂, Deployment (fromTextIn N empty host space place) (fromTextIn N empty host' space' place')
      (fun b => Roomy space' (place' b) b.length) bs qs₁ as₁ qs₂ as₂ := by
  rw [from_text_made he]
  refine C106_inference_function (c := (stringConversion N.isNullableType).ar) (O := T) (t := empty)
    (f := fun (e : Bool) s => fromStringExec N e s) bs (fun s => ?_) (conversion_trips he) behind hroom qs₁ qs₂ h₁ h₂
  simp only [fromStringExec]
  cases empty
  · exact hub s
  · rcases N.nullValue with _ | null
    · exact nofun
    · simp only [if_true]
      split_ifs
      · exact nofun
      · exact hub s

/-- Hypotheses met: a truth value goes through two deployed featurizers. -/
example : ∃ as₂ as₄, (∃ bs qs₁ as₁, Deployment (toTextIn (T := Bool) NullTraits.plain false .little (2 ^ 64) fun _ => 4096)
      (toTextIn NullTraits.plain false .big (2 ^ 64) fun _ => 4096) (fun b => Roomy (2 ^ 64) 4096 b.length) bs qs₁ as₁ [.row true] as₂) ∧
    (∃ bs qs₁ as₁, Deployment (fromTextIn (T := Bool) NullTraits.plain false .little (2 ^ 64) fun _ => 4096)
      (fromTextIn NullTraits.plain false .big (2 ^ 64) fun _ => 4096) (fun b => Roomy (2 ^ 64) 4096 b.length) bs qs₁ as₁
        [.row [84, 114, 117, 101]] as₄) ∧
    as₂[0]? = some (some [[84, 114, 117, 101]]) ∧ as₄[0]? = some (some [true]) := by
  have hroom : ∀ b, Writes ((stringConversion (NullTraits.plain (T := Bool)).isNullableType).ar.save false) b → b ++ [7] ≠ [] ∧
      Roomy (2 ^ 64) 4096 (b ++ [7]).length := by
    intro b hb
    have h1 := save_of (stringConversion false).ar .little 0 false b hb
    have h2 : apiSave (stringConversion false).ar .little 0 false = .ok [1, 0, 0, 0, 0] := by rfl
    have h3 : b = [1, 0, 0, 0, 0] := Except.ok.inj (h1.symm.trans h2)
    subst h3
    exact ⟨by simp, by unfold Roomy; simp⟩
  obtain ⟨as₁, as₂, d⟩ := C106_to_text (T := Bool) (N := NullTraits.plain) (empty := false) (by simp) [] (host := .little) (host' := .big)
    (space := 2 ^ 64) (space' := 2 ^ 64) (place := fun _ => 4096) (place' := fun _ => 4096) [7] hroom [] [.row true] (by simp) (by simp)
  obtain ⟨as₃, as₄, d'⟩ := C106_from_text (T := Bool) (N := NullTraits.plain) (empty := false) (by simp)
    (fun s h => by
      have h : (Except.ok (s == [84, 114, 117, 101]) : Except Err Bool) = .error .ub := h
      cases h) [] (host := .little)
    (host' := .big) (space := 2 ^ 64) (space' := 2 ^ 64) (place := fun _ => 4096) (place' := fun _ => 4096) [7] hroom []
    [.row [84, 114, 117, 101]] (by simp) (by simp)
  have h : as₂[0]? = some (some [[84, 114, 117, 101]]) := by
    rw [(C105_to_text (by simp) d).2]
    rfl
  exact ⟨as₂, as₄, ⟨[], [], as₁, d⟩, ⟨[], [], as₃, d'⟩, h, C105_there_and_back C48_round_trip.1 d d' 0 0 true _ rfl h rfl⟩

end Feat.CApi
