import Verif.Model.RowCodec
/-
What a row of the C interface of the time series imputer is: typed values, their bytes and their texts.
-/
namespace Feat.RowCodec
open Feat.DateText

/-- A value of a column.  Times are whole seconds, durations whole microseconds. -/
inductive Cell where
  | str (s : List UInt8)
  | i8 (x : Int8) | i16 (x : Int16) | i32 (x : Int32) | i64 (x : Int64)
  | u8 (x : UInt8) | u16 (x : UInt16) | u32 (x : UInt32) | u64 (x : UInt64)
  | f32 (x : F32) | f64 (x : F64)
  | bool (x : Bool)
  | time (seconds : Int64)
  | duration (micros : Int64)
  deriving DecidableEq

/-- The number of the type of the column. -/
def Cell.typeId : Cell → UInt32
  | .str _ => 1
  | .i8 _ => 2 | .i16 _ => 3 | .i32 _ => 4 | .i64 _ => 5
  | .u8 _ => 6 | .u16 _ => 7 | .u32 _ => 8 | .u64 _ => 9
  | .f32 _ => 11 | .f64 _ => 12
  | .bool _ => 16
  | .time _ => 17
  | .duration _ => 18

/-- The bytes of a value: numbers are little-endian in two's complement; a text is its length (four bytes) and its bytes. -/
def Cell.bytes : Cell → List UInt8
  | .str s => leBytes 4 s.length ++ s
  | .i8 x => leBytes 1 x.toUInt8.toNat
  | .i16 x => leBytes 2 x.toUInt16.toNat
  | .i32 x => leBytes 4 x.toUInt32.toNat
  | .i64 x => leBytes 8 x.toUInt64.toNat
  | .u8 x => leBytes 1 x.toNat
  | .u16 x => leBytes 2 x.toNat
  | .u32 x => leBytes 4 x.toNat
  | .u64 x => leBytes 8 x.toNat
  | .f32 x => leBytes 4 x.bits.toNat
  | .f64 x => leBytes 8 x.bits.toNat
  | .bool x => [if x then 1 else 0]
  | .time x => leBytes 8 x.toUInt64.toNat
  | .duration x => leBytes 8 x.toUInt64.toNat

/-- The text by which the transformer knows a value. -/
def Cell.text [TextTraits F32] [TextTraits F64] : Cell → List UInt8
  | .str s => s
  | .i8 x => intText x.toInt
  | .i16 x => intText x.toInt
  | .i32 x => intText x.toInt
  | .i64 x => intText x.toInt
  | .u8 x => intText x.toNat
  | .u16 x => intText x.toNat
  | .u32 x => intText x.toNat
  | .u64 x => intText x.toNat
  | .f32 x => TextTraits.toText x
  | .f64 x => TextTraits.toText x
  | .bool x => if x then [84, 114, 117, 101] else [70, 97, 108, 115, 101]
  | .time x => toIso perSec ⟨Int64.ofInt (x.toInt * 1000000000)⟩
  | .duration x => intText (x.toInt * 1000) ++ [110, 115]

/-- A text has less than 2³² bytes; times and durations are within the range of the clock. -/
def Cell.Fits : Cell → Prop
  | .str s => s.length < 2 ^ 32
  | .time x => -2 ^ 63 ≤ x.toInt * 1000000000 ∧ x.toInt * 1000000000 < 2 ^ 63
  | .duration x => -2 ^ 63 ≤ x.toInt * 1000 ∧ x.toInt * 1000 < 2 ^ 63
  | _ => True

/-- Values that come back from their text.  A time point must not be before 1677-09-22; for a floating point number it
depends on the text; there is no way back for durations. -/
def Cell.Exact [TextTraits F32] [TextTraits F64] : Cell → Prop
  | .f32 x => TextTraits.fromText (TextTraits.toText x) = .ok x
  | .f64 x => TextTraits.fromText (TextTraits.toText x) = .ok x
  | .time x => -9223286400 ≤ x.toInt
  | .duration _ => False
  | _ => True

/-- A nullable value of a data column: the null of a column, or a value. -/
inductive Datum where
  | null (typeId : UInt32)
  | value (c : Cell)
  deriving DecidableEq

/-- The number of the type of the column. -/
def Datum.typeId : Datum → UInt32
  | .null id => id
  | .value c => c.typeId

/-- The bytes of a nullable value: floating point columns hold a NaN for null, all others a flag first. -/
def Datum.bytes : Datum → List UInt8
  | .null id => if id = 11 then leBytes 4 0x7FC00000 else if id = 12 then leBytes 8 0x7FF8000000000000 else [0]
  | .value c => if c.typeId = 11 ∨ c.typeId = 12 then c.bytes else 1 :: c.bytes

/-- The text by which the transformer knows a nullable value. -/
def Datum.text [TextTraits F32] [TextTraits F64] : Datum → Option Str
  | .null _ => none
  | .value c => some ⟨c.text⟩

/-- The types a column can have. -/
def Supported (id : UInt32) : Prop :=
  id.toNat ∈ [1, 2, 3, 4, 5, 6, 7, 8, 9, 11, 12, 16, 17, 18]

instance (id : UInt32) : Decidable (Supported id) := by unfold Supported; infer_instance

/-- The null of a supported type, or a value that fits and is not NaN. -/
def Datum.Fits : Datum → Prop
  | .null id => Supported id
  | .value c => c.Fits ∧ (∀ x, c = .f32 x → isNaN32 x = false) ∧ (∀ x, c = .f64 x → isNaN64 x = false)

/-- Nulls, and values that come back from their text. -/
def Datum.Exact [TextTraits F32] [TextTraits F64] : Datum → Prop
  | .null _ => True
  | .value c => c.Exact

/-- A row: a time in whole seconds, the values of the key columns, and those of the data columns. -/
structure Row where
  seconds : Int64
  keys : List Cell
  datas : List Datum

/-- The types of the columns of a row. -/
def Row.types (r : Row) : Serializer := ⟨r.keys.map Cell.typeId, r.datas.map Datum.typeId⟩

/-- The bytes of a row: the parts one after the other. -/
def Row.bytes (r : Row) : List UInt8 :=
  leBytes 8 r.seconds.toUInt64.toNat ++ r.keys.flatMap Cell.bytes ++ r.datas.flatMap Datum.bytes

/-- The row as the transformer knows it. -/
def Row.text [TextTraits F32] [TextTraits F64] (r : Row) : TsIn (List Str) Str :=
  ⟨r.seconds.toInt * 1000000000, r.keys.map fun c => ⟨c.text⟩, r.datas.map Datum.text⟩

/-- The values of a row fit. -/
structure Row.Fits (r : Row) : Prop where
  time : -2 ^ 63 ≤ r.seconds.toInt * 1000000000 ∧ r.seconds.toInt * 1000000000 < 2 ^ 63
  keys : ∀ c ∈ r.keys, c.Fits
  datas : ∀ d ∈ r.datas, d.Fits

/-- The values of a row come back from their texts. -/
structure Row.Exact [TextTraits F32] [TextTraits F64] (r : Row) : Prop where
  keys : ∀ c ∈ r.keys, c.Exact
  datas : ∀ d ∈ r.datas, d.Exact

/-- A row of the transformer for a row of the interface. -/
def Row.out [TextTraits F32] [TextTraits F64] (r : Row) (added : Bool) : TsRow (List Str) Str :=
  ⟨added, r.text.time, r.text.key, r.text.cells⟩

/-- The runs of a transformer on one row after the other (a row that is rejected leaves whatever state it leaves). -/
def runsOf {T I O : Type} (X : Xf T I O) : T → List I → List (Run T O)
  | _, [] => []
  | t, x :: xs => X.exec t x :: runsOf X (X.exec t x).next xs

/-- The answer of the interface to a row says what the transformer did with it: the same exception, or the bytes of the rows
it has put out, each after a byte that says whether the row was added; no rows are a null pointer. -/
def Answer [TextTraits F32] [TextTraits F64] {T : Type} (s : Serializer) (r : Run T (TsRow (List Str) Str))
    (out : Except Err (Option (List (List UInt8)))) : Prop :=
  match r.err with
  | some e => out = .error e
  | none => ∃ ws : List (Bool × Row), (∀ w ∈ ws, w.2.types = s ∧ w.2.Fits ∧ w.2.Exact) ∧
      r.outs = ws.map (fun w => w.2.out w.1) ∧
      out = .ok (if ws = [] then none else some (ws.map fun w => (if w.1 then 1 else 0) :: w.2.bytes))

/-- A data value and its text, from which it comes back. -/
def Datum.Exactly [TextTraits F32] [TextTraits F64] (d : Datum) (t : Option Str) : Prop := d.Exact ∧ d.text = t

/-- The same, or a text that is read as the `float`. -/
def Datum.Shows [TextTraits F32] [TextTraits F64] (d : Datum) (t : Option Str) : Prop :=
  d.Exactly t ∨ ∃ m x, t = some m ∧ d = .value (.f32 x) ∧ TextTraits.fromText m.chars = .ok x

/-- The row put out shows the values of the row, in the sense of `R`. -/
def RowBy [TextTraits F32] [TextTraits F64] (R : Datum → Option Str → Prop) (w : Bool × Row)
    (o : TsRow (List Str) Str) : Prop :=
  o.added = w.1 ∧ o.time = w.2.seconds.toInt * 1000000000 ∧ o.key = (w.2.keys.map fun c => ⟨c.text⟩) ∧
    List.Forall₂ R w.2.datas o.cells

/-- A row of the declared types whose key values come back. -/
def KeyRow [TextTraits F32] [TextTraits F64] (s : Serializer) (w : Row) : Prop := w.types = s ∧ w.Fits ∧ ∀ c ∈ w.keys, c.Exact

/-- The answer of the interface says what the transformer did, with values shown in the sense of `R`. -/
def AnswerBy [TextTraits F32] [TextTraits F64] (R : Datum → Option Str → Prop) {T : Type} (s : Serializer) (r : Run T (TsRow (List Str) Str))
    (out : Except Err (Option (List (List UInt8)))) : Prop :=
  match r.err with
  | some e => out = .error e
  | none => ∃ ws : List (Bool × Row), (∀ w ∈ ws, KeyRow s w.2) ∧ List.Forall₂ (RowBy R) ws r.outs ∧
      out = .ok (if ws = [] then none else some (ws.map fun w => (if w.1 then 1 else 0) :: w.2.bytes))

/-- A call of `Transform`: the row, the address of its bytes, and further bytes in the buffer. -/
structure Call where
  row : Row
  base : Nat
  junk : List UInt8

end Feat.RowCodec
