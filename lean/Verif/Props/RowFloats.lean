import Verif.Props.RowCodec
import Verif.Props.FloatText
/-
C66 with the texts of floating point numbers (C67): rows with any floating point numbers.
-/
namespace Feat.RowCodec
open Feat.FloatText

/-- What is left of a value that has been written as a text and read again: floating point numbers are read from their texts,
all others are as before. -/
def Cell.settle : Cell → Cell
  | .f32 x => match TextTraits.fromText (TextTraits.toText x) with
    | .ok y => .f32 y
    | .error _ => .f32 x
  | .f64 x => match TextTraits.fromText (TextTraits.toText x) with
    | .ok y => .f64 y
    | .error _ => .f64 x
  | c => c

/-- The same for nullable values. -/
def Datum.settle : Datum → Datum
  | .null id => .null id
  | .value c => .value c.settle

/-- The same for rows. -/
def Row.settle (r : Row) : Row := ⟨r.seconds, r.keys.map Cell.settle, r.datas.map Datum.settle⟩

/-- A value that can be read from its text: no duration, no time before 1677-09-22. -/
def Cell.Readable : Cell → Prop
  | .time x => -9223286400 ≤ x.toInt
  | .duration _ => False
  | _ => True

/-- The same for nullable values. -/
def Datum.Readable : Datum → Prop
  | .null _ => True
  | .value c => c.Readable

/-- The same for rows. -/
structure Row.Readable (r : Row) : Prop where
  keys : ∀ c ∈ r.keys, c.Readable
  datas : ∀ d ∈ r.datas, d.Readable

theorem isNaN32_iff (x : F32) : isNaN32 x = true ↔ IsNaN x := by
  rw [bridge_float.nan_iff, isNaN32, decide_eq_true_iff]
  rfl

theorem isNaN64_iff (x : F64) : isNaN64 x = true ↔ IsNaN x := by
  rw [bridge_double.nan_iff, isNaN64, decide_eq_true_iff]
  rfl

section
variable {T : Type} [Binary T] [TextTraits T] {F : Fmt} {of : Nat → T}

omit [TextTraits T] in
theorem kinds (x : T) : Finite x ∨ IsInf x ∨ IsNaN x := by
  by_cases h : exponent x = 2 ^ Binary.exp T - 1
  · by_cases h' : fraction x = 0
    · exact .inr (.inl ⟨h, h'⟩)
    · exact .inr (.inr ⟨h, h'⟩)
  · exact .inl h

/-- What is read from a text has this text. -/
theorem _root_.Feat.FloatText.Bridge.settle (B : Bridge T F of) (x : T) :
    ∃ y : T, TextTraits.fromText (TextTraits.toText x) = .ok y ∧ TextTraits.toText y = TextTraits.toText x ∧
      (IsNaN y → IsNaN x) ∧ (¬ IsNaN x → (Finite y ↔ Finite x)) := by
  rcases kinds x with h | h | h
  · obtain ⟨y, h1, h2, h3⟩ := B.stable h
    exact ⟨y, h1, h3, fun hn => absurd hn.1 h2, fun _ => ⟨fun _ => h, fun _ => h2⟩⟩
  · exact ⟨x, (B.inf_back h).2, rfl, id, fun _ => Iff.rfl⟩
  · obtain ⟨h1, y, h2, h3⟩ := B.nan_back h
    exact ⟨y, h2, by rw [h1, (B.nan_back h3).1], fun _ => h, fun hn => absurd h hn⟩
end

theorem cell_settle (c : Cell) : c.settle.typeId = c.typeId ∧ c.settle.text = c.text ∧ (c.Fits → c.settle.Fits) ∧
    (c.Readable → c.settle.Exact) ∧ c.settle.bytes.length = c.bytes.length ∧
    ((∀ x, c = .f32 x → isNaN32 x = false) → ∀ x, c.settle = .f32 x → isNaN32 x = false) ∧
    ((∀ x, c = .f64 x → isNaN64 x = false) → ∀ x, c.settle = .f64 x → isNaN64 x = false) := by
  cases c with
  | f32 x =>
    obtain ⟨y, h1, h2, h3, _⟩ := bridge_float.settle x
    have e : Cell.settle (.f32 x) = .f32 y := by simp only [Cell.settle, h1]
    rw [e]
    refine ⟨rfl, h2, id, fun _ => ?_, by simp [Cell.bytes, leBytes_length], ?_, by simp⟩
    · show TextTraits.fromText (TextTraits.toText y) = .ok y
      rw [h2, h1]
    · intro hx z hz
      cases hz
      rw [Bool.eq_false_iff, Ne, isNaN32_iff]
      intro hn
      have := hx x rfl
      rw [Bool.eq_false_iff, Ne, isNaN32_iff] at this
      exact this (h3 hn)
  | f64 x =>
    obtain ⟨y, h1, h2, h3, _⟩ := bridge_double.settle x
    have e : Cell.settle (.f64 x) = .f64 y := by simp only [Cell.settle, h1]
    rw [e]
    refine ⟨rfl, h2, id, fun _ => ?_, by simp [Cell.bytes, leBytes_length], by simp, ?_⟩
    · show TextTraits.fromText (TextTraits.toText y) = .ok y
      rw [h2, h1]
    · intro hx z hz
      cases hz
      rw [Bool.eq_false_iff, Ne, isNaN64_iff]
      intro hn
      have := hx x rfl
      rw [Bool.eq_false_iff, Ne, isNaN64_iff] at this
      exact this (h3 hn)
  | _ => exact ⟨rfl, rfl, id, id, rfl, id, id⟩

theorem datum_settle (d : Datum) : d.settle.typeId = d.typeId ∧ d.settle.text = d.text ∧ (d.Fits → d.settle.Fits) ∧
    (d.Readable → d.settle.Exact) ∧ d.settle.bytes.length = d.bytes.length := by
  cases d with
  | null id => exact ⟨rfl, rfl, fun h => h, fun h => h, rfl⟩
  | value c =>
    obtain ⟨h1, h2, h3, h4, h5, h6, h7⟩ := cell_settle c
    refine ⟨h1, ?_, fun h => ⟨h3 h.1, h6 h.2.1, h7 h.2.2⟩, h4, ?_⟩
    · simp only [Datum.settle, Datum.text, h2]
    · simp only [Datum.settle, Datum.bytes, h1]
      split
      · exact h5
      · simp [h5]

theorem length_flatMap {A : Type} (f g : A → List UInt8) (l : List A) (h : ∀ a ∈ l, (f a).length = (g a).length) :
    (l.flatMap f).length = (l.flatMap g).length := by
  induction l with
  | nil => rfl
  | cons a l ih =>
    simp only [List.flatMap_cons, List.length_append]
    rw [h a (by simp), ih fun b hb => h b (by simp [hb])]

theorem row_settle (r : Row) : r.settle.types = r.types ∧ r.settle.text = r.text ∧ (r.Fits → r.settle.Fits) ∧
    (r.Readable → r.settle.Exact) ∧ r.settle.bytes.length = r.bytes.length := by
  refine ⟨?_, ?_, fun h => ⟨h.time, ?_, ?_⟩, fun h => ⟨?_, ?_⟩, ?_⟩
  · unfold Row.types Row.settle
    simp only [List.map_map]
    congr 1
    · exact List.map_congr_left fun c _ => (cell_settle c).1
    · exact List.map_congr_left fun d _ => (datum_settle d).1
  · unfold Row.text Row.settle
    simp only [List.map_map]
    congr 1
    · exact List.map_congr_left fun c _ => by simp [(cell_settle c).2.1]
    · exact List.map_congr_left fun d _ => (datum_settle d).2.1
  · intro c hc
    obtain ⟨c, hm, rfl⟩ := List.mem_map.1 hc
    exact (cell_settle c).2.2.1 (h.keys c hm)
  · intro d hd
    obtain ⟨d, hm, rfl⟩ := List.mem_map.1 hd
    exact (datum_settle d).2.2.1 (h.datas d hm)
  · intro c hc
    obtain ⟨c, hm, rfl⟩ := List.mem_map.1 hc
    exact (cell_settle c).2.2.2.1 (h.keys c hm)
  · intro d hd
    obtain ⟨d, hm, rfl⟩ := List.mem_map.1 hd
    exact (datum_settle d).2.2.2.1 (h.datas d hm)
  · unfold Row.bytes Row.settle
    simp only [List.length_append, List.flatMap_map, leBytes_length]
    rw [length_flatMap _ Cell.bytes _ fun c _ => (cell_settle c).2.2.2.2.1,
      length_flatMap _ Datum.bytes _ fun d _ => (datum_settle d).2.2.2.2]

/-- **C66, writing, with floating point numbers.**  The texts of a row are written as the bytes of the row in which every
floating point number `x` is replaced by the one that is read from the text of `x` (`C67_text`, `C67_read` say which one it
is; by `C67_exact_iff` it is often `x` itself). -/
theorem C66_written_floats (added : Bool) (r : Row) (h : r.Fits) (he : r.Readable) (host : Endian) (space : Nat) :
    r.types.serialize host space [r.out added] = .ok (some [(if added then 1 else 0) :: r.settle.bytes]) := by
  obtain ⟨h1, h2, h3, h4, _⟩ := row_settle r
  have := C66_written added r.settle (h3 h) (h4 he) host space
  have e : r.settle.out added = r.out added := by unfold Row.out; rw [h2]
  rwa [h1, e] at this

theorem transform_serializer (host : Endian) (space : Nat) (b : Buffer) (m : Memory) :
    (Memory.transform host space b m).2.serializer = m.serializer := by
  unfold Memory.transform
  simp only
  split
  · rfl
  · split <;> rfl

theorem transform_congr (host : Endian) (space : Nat) (b b' : Buffer) (m : Memory)
    (h : m.serializer.readBuffer host space b = m.serializer.readBuffer host space b') :
    Memory.transform host space b m = Memory.transform host space b' m := by
  unfold Memory.transform
  rw [h]

theorem history_floats_by {R : Datum → Option Str → Prop} (hR : Shown R) (hE : ∀ (d : Datum) t, d.Exactly t → R d t)
    (s : Serializer) (c : TsConfig (List Str) Str) (hm : MatchesBy R s c) (host : Endian) (space : Nat)
    (calls : List Call) (h : ∀ x ∈ calls, x.row.types = s ∧ x.row.Fits ∧ x.row.Readable ∧
      Roomy space x.base (x.row.bytes ++ x.junk).length) :
    List.Forall₂ (AnswerBy R s) (runsOf (tsImputerXf c) .new (calls.map fun x => x.row.text))
      (Memory.transformAll host space (calls.map fun x => some (x.base, x.row.bytes ++ x.junk)) ⟨s, c, .new⟩).1 := by
  have hroom : ∀ x ∈ calls, Roomy space x.base (x.row.settle.bytes ++ x.junk).length := by
    intro x hx
    have := (h x hx).2.2.2
    rw [List.length_append] at this ⊢
    rwa [(row_settle x.row).2.2.2.2]
  have key := history_by hR s c hm host space (calls.map fun x => ⟨x.row.settle, x.base, x.junk⟩) (by
    intro y hy
    obtain ⟨x, hx, rfl⟩ := List.mem_map.1 hy
    obtain ⟨h1, h2, h3, h4⟩ := h x hx
    obtain ⟨e1, e2, e3, e4, e5⟩ := row_settle x.row
    exact ⟨⟨by simpa [e1] using h1, e3 h2, (e4 h3).keys⟩, (exactly_self (e4 h3).datas).imp fun _ _ he => hE _ _ he, hroom x hx⟩)
  have ht : (calls.map fun x => (⟨x.row.settle, x.base, x.junk⟩ : Call)).map (fun x => x.row.text) = calls.map fun x => x.row.text := by
    rw [List.map_map]
    exact List.map_congr_left fun x _ => (row_settle x.row).2.1
  rw [ht, List.map_map] at key
  have same : ∀ (calls : List Call) (m : Memory), m.serializer = s → (∀ x ∈ calls, x.row.types = s ∧ x.row.Fits ∧
      Roomy space x.base (x.row.bytes ++ x.junk).length ∧ Roomy space x.base (x.row.settle.bytes ++ x.junk).length) →
      Memory.transformAll host space (calls.map fun x => some (x.base, x.row.bytes ++ x.junk)) m =
        Memory.transformAll host space (calls.map ((fun x : Call => some (x.base, x.row.bytes ++ x.junk)) ∘
          fun x => (⟨x.row.settle, x.base, x.junk⟩ : Call))) m := by
    intro calls
    induction calls with
    | nil => intro m _ _; rfl
    | cons x xs ih =>
      intro m hs hx
      obtain ⟨h1, h2, h3, h4⟩ := hx x (by simp)
      obtain ⟨e1, e2, e3, e4, e5⟩ := row_settle x.row
      have r1 := C66_read x.row h2 host space x.base x.junk h3
      have r2 := C66_read x.row.settle (e3 h2) host space x.base x.junk h4
      rw [e1, e2] at r2
      rw [h1] at r1 r2
      have ht := transform_congr host space (some (x.base, x.row.bytes ++ x.junk)) (some (x.base, x.row.settle.bytes ++ x.junk)) m
        (by rw [hs, r1, r2])
      simp only [List.map_cons, Memory.transformAll, Function.comp]
      rw [ht, ih _ (by rw [transform_serializer, hs]) fun y hy => hx y (by simp [hy])]
  rw [same calls _ rfl fun x hx => ⟨(h x hx).1, (h x hx).2.1, (h x hx).2.2.2, hroom x hx⟩]
  exact key

/-- **C66, histories of rows with any floating point numbers (partial: no durations, no times before 1677-09-22).**  The
interface answers what the transformer does with the texts of the values: the same exception, or the bytes of exactly the
rows it puts out. -/
theorem C66_history_floats_partial (s : Serializer) (c : TsConfig (List Str) Str) (hm : Matches s c) (host : Endian) (space : Nat)
    (calls : List Call) (h : ∀ x ∈ calls, x.row.types = s ∧ x.row.Fits ∧ x.row.Readable ∧
      Roomy space x.base (x.row.bytes ++ x.junk).length) :
    List.Forall₂ (Answer s) (runsOf (tsImputerXf c) .new (calls.map fun x => x.row.text))
      (Memory.transformAll host space (calls.map fun x => some (x.base, x.row.bytes ++ x.junk)) ⟨s, c, .new⟩).1 :=
  (history_floats_by shown_exactly (fun _ _ h => h) s c hm host space calls h).imp fun _ _ h => answer_exactly h

theorem shown_shows : Shown Datum.Shows :=
  ⟨fun id => .inl (shown_exactly.null id), fun d t h hR => by
    rcases hR with hR | ⟨m, x, rfl, rfl, hm⟩
    · exact shown_exactly.writes d t h hR
    · exact float_writes hm⟩

/-! ### Examples -/

/-- 0.1 (`float`) and 2⁻⁴⁰ (`double`): the first comes back, the second does not; a row with both meets the hypotheses of
`C66_written_floats` and `C66_history_floats_partial`. -/
private def mixedRow : Row := ⟨7, [.f32 ⟨0x3DCCCCCD⟩, .str [97]], [.value (.f64 ⟨0x3D70000000000000⟩), .null 12]⟩

example : mixedRow.settle = ⟨7, [.f32 ⟨0x3DCCCCCD⟩, .str [97]], [.value (.f64 ⟨0⟩), .null 12]⟩ := by
  have h1 : (TextTraits.fromText (TextTraits.toText (⟨0x3DCCCCCD⟩ : F32)) : Except Err F32) = .ok ⟨0x3DCCCCCD⟩ := by decide +kernel
  have h2 : (TextTraits.fromText (TextTraits.toText (⟨0x3D70000000000000⟩ : F64)) : Except Err F64) = .ok ⟨0⟩ := by decide +kernel
  simp only [mixedRow, Row.settle, List.map_cons, List.map_nil, Cell.settle, Datum.settle, h1, h2]

example : mixedRow.Fits ∧ mixedRow.Readable := by
  refine ⟨⟨by decide, ?_, ?_⟩, ⟨?_, ?_⟩⟩
  · simp only [mixedRow, List.mem_cons, List.not_mem_nil, or_false]
    rintro c (rfl | rfl)
    · trivial
    · simp [Cell.Fits]
  · simp only [mixedRow, List.mem_cons, List.not_mem_nil, or_false]
    rintro c (rfl | rfl)
    · refine ⟨trivial, by simp, ?_⟩
      intro x hx
      cases hx
      decide
    · show Supported 12
      decide
  · simp only [mixedRow, List.mem_cons, List.not_mem_nil, or_false]
    rintro c (rfl | rfl) <;> trivial
  · simp only [mixedRow, List.mem_cons, List.not_mem_nil, or_false]
    rintro c (rfl | rfl) <;> trivial

end Feat.RowCodec
