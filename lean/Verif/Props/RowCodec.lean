import Verif.Spec.RowCodec
import Verif.Props.Codec
import Verif.Props.ChainArchive
import Verif.Props.Text
import Verif.Props.DateText
import Verif.Props.TimeSeriesImputer
import Mathlib.Tactic.NormNum
/-
C66: rows of the C interface of the time series imputer.
-/
namespace Feat.RowCodec
open Feat.DateText

/-! ### One value -/

/-- The bytes `bs` are those of `x`: they are read as `x`, no proper prefix is accepted, and they are written for `x`. -/
structure Law {T : Type} [Traits T] (bs : List UInt8) (x : T) : Prop where
  reads : Reads (Traits.deserialize : M Archive T) bs x
  truncs : Truncs (Traits.deserialize : M Archive T) bs
  writes : Writes (Traits.serialize x) bs

theorem Law.scalar {T : Type} [Scalar T] (x : T) : Law (scalarBytes x) x :=
  ⟨Scalar.reads x, Scalar.truncs x, Scalar.writes x⟩

theorem Law.bool (x : Bool) : Law [if x then 1 else 0] x := by
  have e : scalarBytes x = [if x then 1 else 0] := by cases x <;> decide
  rw [← e]
  exact Law.scalar x

theorem leBytes_mod (k n : Nat) : leBytes k (n % 256 ^ k) = leBytes k n := by
  induction k generalizing n with
  | zero => rfl
  | succ k ih =>
    simp only [leBytes]
    congr 1
    · rw [Nat.pow_succ', Nat.mod_mul_right_mod]
    · rw [Nat.pow_succ', Nat.mod_mul_right_div_self, ih]

theorem lenBytes_eq (n : Nat) : lenBytes n = leBytes 4 n := by
  show leBytes 4 (UInt32.ofNat n).toNat = _
  rw [UInt32.toNat_ofNat']
  exact leBytes_mod 4 n

theorem Law.str (s : List UInt8) (h : s.length < 2 ^ 32) : Law (leBytes 4 s.length ++ s) (⟨s⟩ : Str) := by
  have e : leBytes 4 s.length ++ s = Codec.bytes (⟨s⟩ : Str) := by
    show _ = lenBytes s.length ++ s
    rw [lenBytes_eq]
  rw [e]
  exact ⟨Codec.reads _ h, Codec.truncs _ h, Codec.writes _ h⟩

theorem readUp_of (q : Nat) (n : Int64) (h1 : -2 ^ 63 ≤ n.toInt * q) (h2 : n.toInt * q < 2 ^ 63) :
    Reads (readUp q) (scalarBytes n) (Int64.ofInt (n.toInt * q)) ∧ Truncs (readUp q) (scalarBytes n) := by
  have e : castUp q n = .ok (Int64.ofInt (n.toInt * q)) := by
    unfold castUp
    exact if_pos ⟨h1, h2⟩
  constructor
  · unfold readUp
    have := Reads.bind (f := fun n => match castUp q n with
      | .ok t => (Pure.pure t : M Archive Int64)
      | .error e => M.throw e) (Scalar.reads n) (by rw [e]; exact Reads.pure _)
    rwa [List.append_nil] at this
  · exact Truncs.map (Scalar.reads n) (Scalar.truncs n)

theorem castDown_mul (q : Nat) (hq : 0 < q) (n : Int64) (h1 : -2 ^ 63 ≤ n.toInt * q) (h2 : n.toInt * q < 2 ^ 63) :
    castDown q (Int64.ofInt (n.toInt * q)) = n := by
  unfold castDown
  rw [Int64.toInt_ofInt_of_le h1 h2, Int.mul_tdiv_cancel _ (by omega)]
  exact Int64.ofInt_toInt n

theorem perSec_int : ((perSec : Nat) : Int) = 1000000000 := rfl

theorem Law.time (n : Int64) (h : -2 ^ 63 ≤ n.toInt * 1000000000 ∧ n.toInt * 1000000000 < 2 ^ 63) :
    Law (leBytes 8 n.toUInt64.toNat) (⟨Int64.ofInt (n.toInt * 1000000000)⟩ : TimePoint perSec) := by
  rw [← perSec_int] at h ⊢
  obtain ⟨r, t⟩ := readUp_of perSec n h.1 h.2
  refine ⟨Reads.map _ r, Truncs.map r t, ?_⟩
  show Writes (Scalar.write (castDown perSec (Int64.ofInt (n.toInt * (perSec : Nat))))) (scalarBytes n)
  rw [castDown_mul perSec (by decide) n h.1 h.2]
  exact Scalar.writes n

theorem perMicro_int : ((perMicro : Nat) : Int) = 1000 := rfl

theorem Law.duration (n : Int64) (h : -2 ^ 63 ≤ n.toInt * 1000 ∧ n.toInt * 1000 < 2 ^ 63) :
    Law (leBytes 8 n.toUInt64.toNat) (⟨Int64.ofInt (n.toInt * 1000)⟩ : Duration perMicro) := by
  rw [← perMicro_int] at h ⊢
  obtain ⟨r, t⟩ := readUp_of perMicro n h.1 h.2
  refine ⟨Reads.map _ r, Truncs.map r t, ?_⟩
  show Writes (Scalar.write (castDown perMicro (Int64.ofInt (n.toInt * (perMicro : Nat))))) (scalarBytes n)
  rw [castDown_mul perMicro (by decide) n h.1 h.2]
  exact Scalar.writes n

/-! ### One column -/

section
variable {T : Type} [Traits T] [TextTraits T]

theorem keyOf_reads {bs : List UInt8} {x : T} (h : Law bs x) : Reads (keyOf T) bs ⟨TextTraits.toText x⟩ :=
  Reads.map _ h.reads

theorem keyOf_truncs {bs : List UInt8} {x : T} (h : Law bs x) : Truncs (keyOf T) bs := Truncs.map h.reads h.truncs

theorem keyTo_writes {bs s : List UInt8} {x : T} (h : Law bs x) (hs : TextTraits.fromText s = .ok x) :
    Writes (keyTo T ⟨s⟩) bs := by
  unfold keyTo
  rw [hs]
  exact h.writes

omit [TextTraits T] in
theorem option_null : Reads (Traits.deserialize : M Archive (Option T)) [0] none ∧
    Truncs (Traits.deserialize : M Archive (Option T)) [0] ∧ Writes (Traits.serialize (none : Option T)) [0] := by
  have e : scalarBytes false = [0] := by decide
  refine ⟨?_, ?_, ?_⟩
  · have := Reads.bind (f := fun b => if b = true then ((Traits.deserialize : M Archive T) >>= fun v => pure (some v))
      else pure none) (Scalar.reads false) (b₂ := []) (w := none) (Reads.pure _)
    rw [e] at this
    exact this
  · rw [← e]
    exact Truncs.map (Scalar.reads false) (Scalar.truncs false)
  · rw [← e]
    exact Scalar.writes false

omit [TextTraits T] in
theorem option_value {bs : List UInt8} {x : T} (h : Law bs x) : Law (1 :: bs) (some x) := by
  have e : scalarBytes true = [1] := by decide
  have e' : 1 :: bs = scalarBytes true ++ bs := by rw [e]; rfl
  rw [e']
  refine ⟨?_, ?_, ?_⟩
  · exact Reads.bind (f := fun b => if b = true then ((Traits.deserialize : M Archive T) >>= fun v => pure (some v))
      else pure none) (Scalar.reads true) (Reads.map _ h.reads)
  · exact Truncs.bind (f := fun b => if b = true then ((Traits.deserialize : M Archive T) >>= fun v => pure (some v))
      else pure none) (Scalar.reads true) (Scalar.truncs true) (Truncs.map h.reads h.truncs)
  · exact Writes.bind (Scalar.writes true) h.writes

theorem dataOf_reads {bs : List UInt8} {x : T} (h : Law bs x) :
    Reads (@dataOf T optionNullable _) (1 :: bs) (some ⟨TextTraits.toText x⟩) :=
  Reads.map (fun v : Option T => v.map fun x => (⟨TextTraits.toText x⟩ : Str)) (option_value h).reads

theorem dataOf_truncs {bs : List UInt8} {x : T} (h : Law bs x) : Truncs (@dataOf T optionNullable _) (1 :: bs) :=
  Truncs.map (option_value h).reads (option_value h).truncs

theorem dataTo_writes {bs s : List UInt8} {x : T} (h : Law bs x) (hs : TextTraits.fromText s = .ok x) :
    Writes (@dataTo T optionNullable _ (some ⟨s⟩)) (1 :: bs) := by
  unfold dataTo
  simp only [hs]
  exact (option_value h).writes

theorem dataOf_null : Reads (@dataOf T optionNullable _) [0] none :=
  Reads.map (fun v : Option T => v.map fun x => (⟨TextTraits.toText x⟩ : Str)) option_null.1

theorem dataOf_null_truncs : Truncs (@dataOf T optionNullable _) [0] := Truncs.map option_null.1 option_null.2.1

theorem dataTo_null : Writes (@dataTo T optionNullable _ none) [0] := option_null.2.2

end

section
variable [TextTraits F32] [TextTraits F64]

omit [TextTraits F64] in
theorem float_reads (x : F32) : Reads (dataOf F32) (scalarBytes x)
    (if isNaN32 x then none else some ⟨TextTraits.toText x⟩) := by
  have := Reads.map (fun v : F32 => (if isNaN32 v then none else some v).map fun x => (⟨TextTraits.toText x⟩ : Str))
    (Scalar.reads x)
  cases h : isNaN32 x <;> rw [h] at this <;> exact this

omit [TextTraits F32] in
theorem double_reads (x : F64) : Reads (dataOf F64) (scalarBytes x)
    (if isNaN64 x then none else some ⟨TextTraits.toText x⟩) := by
  have := Reads.map (fun v : F64 => (if isNaN64 v then none else some v).map fun x => (⟨TextTraits.toText x⟩ : Str))
    (Scalar.reads x)
  cases h : isNaN64 x <;> rw [h] at this <;> exact this

omit [TextTraits F64] in
theorem float_truncs (x : F32) : Truncs (dataOf F32) (scalarBytes x) := Truncs.map (Scalar.reads x) (Scalar.truncs x)

omit [TextTraits F32] in
theorem double_truncs (x : F64) : Truncs (dataOf F64) (scalarBytes x) := Truncs.map (Scalar.reads x) (Scalar.truncs x)

omit [TextTraits F64] in
theorem float_writes {s : List UInt8} {x : F32} (hs : TextTraits.fromText s = .ok x) :
    Writes (dataTo F32 (some ⟨s⟩)) (scalarBytes x) := by
  unfold dataTo
  simp only [hs]
  exact Scalar.writes x

omit [TextTraits F32] in
theorem double_writes {s : List UInt8} {x : F64} (hs : TextTraits.fromText s = .ok x) :
    Writes (dataTo F64 (some ⟨s⟩)) (scalarBytes x) := by
  unfold dataTo
  simp only [hs]
  exact Scalar.writes x

theorem loadKey_spec (c : Cell) (h : c.Fits) :
    Reads (loadKey c.typeId) c.bytes ⟨c.text⟩ ∧ Truncs (loadKey c.typeId) c.bytes := by
  cases c with
  | str s => exact ⟨keyOf_reads (Law.str s h), keyOf_truncs (Law.str s h)⟩
  | time n => exact ⟨keyOf_reads (Law.time n h), keyOf_truncs (Law.time n h)⟩
  | duration n =>
    have e : (Cell.duration n).text = TextTraits.toText (⟨Int64.ofInt (n.toInt * 1000)⟩ : Duration perMicro) := by
      show intText _ ++ _ = intText _ ++ _
      rw [Int64.toInt_ofInt_of_le h.1 h.2]
    rw [e]
    exact ⟨keyOf_reads (Law.duration n h), keyOf_truncs (Law.duration n h)⟩
  | bool x =>
    exact ⟨keyOf_reads (Law.bool x), keyOf_truncs (Law.bool x)⟩
  | _ x => exact ⟨keyOf_reads (Law.scalar x), keyOf_truncs (Law.scalar x)⟩

omit [TextTraits F32] [TextTraits F64] in
theorem Supported.cases {P : UInt32 → Prop} {id : UInt32} (h : Supported id) (p1 : P 1) (p2 : P 2) (p3 : P 3) (p4 : P 4)
    (p5 : P 5) (p6 : P 6) (p7 : P 7) (p8 : P 8) (p9 : P 9) (p11 : P 11) (p12 : P 12) (p16 : P 16) (p17 : P 17) (p18 : P 18) :
    P id := by
  have key : ∀ n : UInt32, id.toNat = n.toNat → P n → P id := fun n h p => by
    rw [UInt32.toNat_inj.1 h]
    exact p
  simp only [Supported, List.mem_cons, List.not_mem_nil, or_false] at h
  rcases h with h | h | h | h | h | h | h | h | h | h | h | h | h | h
  · exact key 1 h p1
  · exact key 2 h p2
  · exact key 3 h p3
  · exact key 4 h p4
  · exact key 5 h p5
  · exact key 6 h p6
  · exact key 7 h p7
  · exact key 8 h p8
  · exact key 9 h p9
  · exact key 11 h p11
  · exact key 12 h p12
  · exact key 16 h p16
  · exact key 17 h p17
  · exact key 18 h p18

theorem loadData_null {id : UInt32} (h : Supported id) :
    Reads (loadData id) (Datum.null id).bytes none ∧ Truncs (loadData id) (Datum.null id).bytes := by
  apply h.cases (P := fun id => Reads (loadData id) (Datum.null id).bytes none ∧
    Truncs (loadData id) (Datum.null id).bytes)
  case p11 =>
    have e : (Datum.null 11).bytes = scalarBytes (⟨0x7FC00000⟩ : F32) := by decide +kernel
    have h := float_reads ⟨0x7FC00000⟩
    rw [show isNaN32 ⟨0x7FC00000⟩ = true by decide] at h
    rw [e]
    exact ⟨h, float_truncs _⟩
  case p12 =>
    have e : (Datum.null 12).bytes = scalarBytes (⟨0x7FF8000000000000⟩ : F64) := by decide +kernel
    have h := double_reads ⟨0x7FF8000000000000⟩
    rw [show isNaN64 ⟨0x7FF8000000000000⟩ = true by decide] at h
    rw [e]
    exact ⟨h, double_truncs _⟩
  all_goals exact ⟨dataOf_null, dataOf_null_truncs⟩

theorem saveData_null {id : UInt32} (h : Supported id) : Writes (saveData id none) (Datum.null id).bytes := by
  apply h.cases (P := fun id => Writes (saveData id none) (Datum.null id).bytes)
  case p11 =>
    have e : (Datum.null 11).bytes = scalarBytes (⟨0x7FC00000⟩ : F32) := by decide +kernel
    rw [e]
    exact Scalar.writes (⟨0x7FC00000⟩ : F32)
  case p12 =>
    have e : (Datum.null 12).bytes = scalarBytes (⟨0x7FF8000000000000⟩ : F64) := by decide +kernel
    rw [e]
    exact Scalar.writes (⟨0x7FF8000000000000⟩ : F64)
  all_goals exact dataTo_null

theorem loadData_spec (d : Datum) (h : d.Fits) :
    Reads (loadData d.typeId) d.bytes d.text ∧ Truncs (loadData d.typeId) d.bytes := by
  cases d with
  | null id => exact loadData_null h
  | value c =>
    obtain ⟨hc, h32, h64⟩ := h
    cases c with
    | str s => exact ⟨dataOf_reads (Law.str s hc), dataOf_truncs (Law.str s hc)⟩
    | time n => exact ⟨dataOf_reads (Law.time n hc), dataOf_truncs (Law.time n hc)⟩
    | duration n =>
      have e : (Cell.duration n).text = TextTraits.toText (⟨Int64.ofInt (n.toInt * 1000)⟩ : Duration perMicro) := by
        show intText _ ++ _ = intText _ ++ _
        rw [Int64.toInt_ofInt_of_le hc.1 hc.2]
      rw [Datum.text, e]
      exact ⟨dataOf_reads (Law.duration n hc), dataOf_truncs (Law.duration n hc)⟩
    | bool x => exact ⟨dataOf_reads (Law.bool x), dataOf_truncs (Law.bool x)⟩
    | f32 x =>
      have := float_reads x
      rw [h32 x rfl] at this
      exact ⟨this, float_truncs x⟩
    | f64 x =>
      have := double_reads x
      rw [h64 x rfl] at this
      exact ⟨this, double_truncs x⟩
    | _ x => exact ⟨dataOf_reads (Law.scalar x), dataOf_truncs (Law.scalar x)⟩

omit [TextTraits F32] [TextTraits F64] in
theorem iso_text (q : Nat) (hq : q = 10 ^ 9) (t : TimePoint q) (h : -9223286400000000000 ≤ t.ticks.toInt)
    (hd : (1000000000 : Int) ∣ t.ticks.toInt) : fromIso q 9 (toIso q t) = .ok t := by
  subst hq
  obtain ⟨tp, h1, h2⟩ := C65_round_trip_nanoseconds t h
  rw [h1]
  obtain ⟨tp⟩ := tp
  obtain ⟨t⟩ := t
  rw [Int.ediv_mul_cancel hd] at h2
  have : tp = t := Int64.toInt_inj.1 h2
  rw [this]

theorem time_text (n : Int64) (h : -2 ^ 63 ≤ n.toInt * 1000000000 ∧ n.toInt * 1000000000 < 2 ^ 63)
    (h' : -9223286400 ≤ n.toInt) :
    (TextTraits.fromText (Cell.time n).text : Except Err (TimePoint perSec)) =
      .ok (⟨Int64.ofInt (n.toInt * 1000000000)⟩ : TimePoint perSec) := by
  have e := Int64.toInt_ofInt_of_le h.1 h.2
  refine iso_text perSec (by rw [perSec]; norm_num) _ ?_ ?_
  · simp only [e]
    omega
  · simp only [e]
    exact Int.dvd_mul_left _ _

theorem saveKey_spec (c : Cell) (h : c.Fits) (he : c.Exact) : Writes (saveKey c.typeId ⟨c.text⟩) c.bytes := by
  obtain ⟨hb, hi8, hi16, hi32, hi64, hu8, hu16, hu32, hu64⟩ := C48_round_trip
  cases c with
  | str s => exact keyTo_writes (Law.str s h) rfl
  | time n =>
    have hx := keyTo_writes (Law.time n h) (time_text n h he)
    exact hx
  | duration n => exact he.elim
  | bool x => exact keyTo_writes (Law.bool x) (hb x)
  | i8 x => exact keyTo_writes (Law.scalar x) (hi8 x)
  | i16 x => exact keyTo_writes (Law.scalar x) (hi16 x)
  | i32 x => exact keyTo_writes (Law.scalar x) (hi32 x)
  | i64 x => exact keyTo_writes (Law.scalar x) (hi64 x)
  | u8 x => exact keyTo_writes (Law.scalar x) (hu8 x)
  | u16 x => exact keyTo_writes (Law.scalar x) (hu16 x)
  | u32 x => exact keyTo_writes (Law.scalar x) (hu32 x)
  | u64 x => exact keyTo_writes (Law.scalar x) (hu64 x)
  | f32 x => exact keyTo_writes (Law.scalar x) he
  | f64 x => exact keyTo_writes (Law.scalar x) he

theorem saveData_spec (d : Datum) (h : d.Fits) (he : d.Exact) : Writes (saveData d.typeId d.text) d.bytes := by
  obtain ⟨hb, hi8, hi16, hi32, hi64, hu8, hu16, hu32, hu64⟩ := C48_round_trip
  cases d with
  | null id => exact saveData_null h
  | value c =>
    obtain ⟨hc, h32, h64⟩ := h
    cases c with
    | str s => exact dataTo_writes (Law.str s hc) rfl
    | time n =>
      have hx := dataTo_writes (Law.time n hc) (time_text n hc he)
      exact hx
    | duration n => exact he.elim
    | bool x => exact dataTo_writes (Law.bool x) (hb x)
    | i8 x => exact dataTo_writes (Law.scalar x) (hi8 x)
    | i16 x => exact dataTo_writes (Law.scalar x) (hi16 x)
    | i32 x => exact dataTo_writes (Law.scalar x) (hi32 x)
    | i64 x => exact dataTo_writes (Law.scalar x) (hi64 x)
    | u8 x => exact dataTo_writes (Law.scalar x) (hu8 x)
    | u16 x => exact dataTo_writes (Law.scalar x) (hu16 x)
    | u32 x => exact dataTo_writes (Law.scalar x) (hu32 x)
    | u64 x => exact dataTo_writes (Law.scalar x) (hu64 x)
    | f32 x => exact float_writes he
    | f64 x => exact double_writes he

/-! ### Rows -/

theorem loadKeys_spec (cs : List Cell) (h : ∀ c ∈ cs, c.Fits) :
    Reads (loadKeys (cs.map Cell.typeId)) (cs.flatMap Cell.bytes) (cs.map fun c => ⟨c.text⟩) ∧
      Truncs (loadKeys (cs.map Cell.typeId)) (cs.flatMap Cell.bytes) := by
  induction cs with
  | nil => exact ⟨Reads.pure _, Truncs.nil _⟩
  | cons c cs ih =>
    obtain ⟨r, t⟩ := loadKey_spec c (h c (by simp))
    obtain ⟨rs, ts⟩ := ih (fun d hd => h d (by simp [hd]))
    exact ⟨Reads.bind r (Reads.map _ rs), Truncs.bind r t (Truncs.map rs ts)⟩

theorem loadDatas_spec (ds : List Datum) (h : ∀ d ∈ ds, d.Fits) :
    Reads (loadDatas (ds.map Datum.typeId)) (ds.flatMap Datum.bytes) (ds.map Datum.text) ∧
      Truncs (loadDatas (ds.map Datum.typeId)) (ds.flatMap Datum.bytes) := by
  induction ds with
  | nil => exact ⟨Reads.pure _, Truncs.nil _⟩
  | cons c cs ih =>
    obtain ⟨r, t⟩ := loadData_spec c (h c (by simp))
    obtain ⟨rs, ts⟩ := ih (fun d hd => h d (by simp [hd]))
    exact ⟨Reads.bind r (Reads.map _ rs), Truncs.bind r t (Truncs.map rs ts)⟩

theorem saveKeys_spec (cs : List Cell) (h : ∀ c ∈ cs, c.Fits) (he : ∀ c ∈ cs, c.Exact) :
    Writes (saveKeys (cs.map Cell.typeId) (cs.map fun c => ⟨c.text⟩)) (cs.flatMap Cell.bytes) := by
  induction cs with
  | nil => exact Writes.pure
  | cons c cs ih =>
    exact Writes.bind (saveKey_spec c (h c (by simp)) (he c (by simp)))
      (ih (fun d hd => h d (by simp [hd])) (fun d hd => he d (by simp [hd])))

theorem saveDatas_spec (ds : List Datum) (h : ∀ d ∈ ds, d.Fits) (he : ∀ d ∈ ds, d.Exact) :
    Writes (saveDatas (ds.map Datum.typeId) (ds.map Datum.text)) (ds.flatMap Datum.bytes) := by
  induction ds with
  | nil => exact Writes.pure
  | cons c cs ih =>
    exact Writes.bind (saveData_spec c (h c (by simp)) (he c (by simp)))
      (ih (fun d hd => h d (by simp [hd])) (fun d hd => he d (by simp [hd])))

theorem row_spec (r : Row) (h : r.Fits) : Reads r.types.readRow r.bytes r.text ∧ Truncs r.types.readRow r.bytes := by
  have l := Law.time r.seconds h.time
  obtain ⟨rk, tk⟩ := loadKeys_spec r.keys h.keys
  obtain ⟨rd, td⟩ := loadDatas_spec r.datas h.datas
  have e : r.text = ⟨(Int64.ofInt (r.seconds.toInt * 1000000000)).toInt, r.keys.map fun c => ⟨c.text⟩,
      r.datas.map Datum.text⟩ := by
    rw [Int64.toInt_ofInt_of_le h.time.1 h.time.2]
    rfl
  rw [e, Row.bytes, List.append_assoc]
  exact ⟨Reads.bind l.reads (Reads.bind rk (Reads.map _ rd)), Truncs.bind l.reads l.truncs (Truncs.bind rk tk (Truncs.map rd td))⟩

/-- **C66, reading.**  A row whose bytes follow the types of the columns is read as the texts of its values, whatever comes
after it in the buffer. -/
theorem C66_read (r : Row) (h : r.Fits) (host : Endian) (space base : Nat) (junk : List UInt8)
    (hroom : Roomy space base (r.bytes ++ junk).length) :
    r.types.readBuffer host space (some (base, r.bytes ++ junk)) = .ok r.text := by
  have hne : (r.bytes ++ junk).length ≠ 0 := by
    simp [Row.bytes, leBytes_length]
  unfold Serializer.readBuffer
  simp only
  rw [if_neg hne]
  have := (row_spec r h).1 host space base [] junk hroom
  rw [show Archive.mkReader host space base (r.bytes ++ junk) = Archive.rd host space base ([] ++ r.bytes ++ junk) [].length
    from rfl, this]

/-- **C66, truncated rows.**  A buffer that ends before the row does is rejected with an exception. -/
theorem C66_truncated (r : Row) (h : r.Fits) (host : Endian) (space base k : Nat) (hk : k < r.bytes.length)
    (hroom : Roomy space base r.bytes.length) :
    ∃ e, r.types.readBuffer host space (some (base, r.bytes.take k)) = .error e ∧ e.isException := by
  unfold Serializer.readBuffer
  simp only
  by_cases hz : (r.bytes.take k).length = 0
  · rw [if_pos hz]
    exact ⟨_, rfl, trivial⟩
  · rw [if_neg hz]
    obtain ⟨e, a', he, hx⟩ := (row_spec r h).2 host space base [] k hk hroom
    refine ⟨e, ?_, hx⟩
    rw [show Archive.mkReader host space base (r.bytes.take k) = Archive.rd host space base ([] ++ r.bytes.take k) [].length
      from rfl, he]

theorem writeRow_spec (added : Bool) (r : Row) (h : r.Fits) (he : r.Exact) :
    Writes (r.types.writeRow (r.out added)) ((if added then 1 else 0) :: r.bytes) := by
  have e : (if added then 1 else 0) :: r.bytes = [if added then 1 else 0] ++ r.bytes := rfl
  rw [e, Row.bytes, List.append_assoc]
  exact Writes.bind (Law.bool added).writes (Writes.bind (Law.time r.seconds h.time).writes
    (Writes.bind (saveKeys_spec r.keys h.keys he.keys) (saveDatas_spec r.datas h.datas he.datas)))

/-- **C66, writing.**  The texts of a row whose values come back from their texts are written as the bytes of the row, after
a byte that says whether the row was added. -/
theorem C66_written (added : Bool) (r : Row) (h : r.Fits) (he : r.Exact) (host : Endian) (space : Nat) :
    r.types.serialize host space [r.out added] =
      .ok (some [(if added then 1 else 0) :: r.bytes]) := by
  have := writeRow_spec added r h he (Archive.mkWriter host space) rfl
  unfold Serializer.serialize
  rw [if_neg (by simp)]
  simp only [Serializer.writeRows, this]
  rfl

end

/-! ### The rows of the transformer stay rows of the given types -/

section
variable {K S : Type} [LinearOrder K]

/-- What is needed of a set of rows so that the transformer does not leave it. -/
structure Closed (c : TsConfig K S) (keyOk : K → Prop) (cellsOk : List (Option S) → Prop) (timeOk : Int → Prop) : Prop where
  impute : ∀ a b r, cellsOk a → cellsOk b → tsImpute a b = .ok r → cellsOk r
  nulls : ∀ a, cellsOk a → cellsOk (List.replicate a.length none)
  median : c.strategy = .median → ∀ k a r, keyOk k → cellsOk a → medianCells c.suppress c.types (c.medians.find? k) a = .ok r → cellsOk r
  add : ∀ t t', timeOk t → addTime t c.frequency = .ok t' → timeOk t'

variable {c : TsConfig K S} {keyOk : K → Prop} {cellsOk : List (Option S) → Prop} {timeOk : Int → Prop}

/-- A row of the set. -/
def GoodRow (keyOk : K → Prop) (cellsOk : List (Option S) → Prop) (timeOk : Int → Prop) (r : TsRow K S) : Prop :=
  keyOk r.key ∧ cellsOk r.cells ∧ timeOk r.time

/-- All rows the transformer holds are in the set. -/
structure GoodState (keyOk : K → Prop) (cellsOk : List (Option S) → Prop) (timeOk : Int → Prop) (t : TsImputer K S) :
    Prop where
  last : ∀ k r, t.last.find? k = some r → GoodRow keyOk cellsOk timeOk r
  buffer : ∀ k rs, t.buffer.find? k = some rs → ∀ r ∈ rs, GoodRow keyOk cellsOk timeOk r

theorem generateTimes_good (hc : Closed c keyOk cellsOk timeOk) (input : Int) :
    ∀ (space : Nat) (temp : Int) (ts : List Int), timeOk temp → generateTimes c.frequency input space temp = .ok ts →
      ∀ t ∈ ts, timeOk t := by
  intro space
  induction space with
  | zero =>
    intro temp ts ht h
    rw [generateTimes] at h
    split at h
    · simp at h
    · simp only [Except.ok.injEq] at h
      subst h
      simp
  | succ space ih =>
    intro temp ts ht h
    rw [generateTimes] at h
    split at h
    · rcases ha : addTime temp c.frequency with e | next
      · rw [ha] at h
        simp at h
      · rw [ha] at h
        simp only at h
        rcases hg : generateTimes c.frequency input space next with e | times
        · rw [hg] at h
          simp at h
        · rw [hg] at h
          simp only [Except.ok.injEq] at h
          subst h
          intro t hm
          rcases List.mem_cons.1 hm with rfl | hm
          · exact ht
          · exact ih next times (hc.add _ _ ht ha) hg t hm
    · simp only [Except.ok.injEq] at h
      subst h
      simp

theorem generateRows_good (hc : Closed c keyOk cellsOk timeOk) (space : Nat) (x : TsIn K S) (a : Int)
    (hx : GoodRow keyOk cellsOk timeOk x.row) (ha : timeOk a) (rows : List (TsRow K S))
    (h : generateRows c.frequency space x a = .ok rows) : ∀ r ∈ rows, GoodRow keyOk cellsOk timeOk r := by
  unfold generateRows at h
  rcases hA : addTime a c.frequency with e | first
  · rw [hA] at h
    simp at h
  · rw [hA] at h
    simp only at h
    rcases hg : generateTimes c.frequency x.time space first with e | times
    · rw [hg] at h
      simp at h
    · rw [hg] at h
      simp only [Except.ok.injEq] at h
      subst h
      intro r hr
      rcases List.mem_append.1 hr with hr | hr
      · obtain ⟨t, ht, rfl⟩ := List.mem_map.1 hr
        exact ⟨hx.1, hc.nulls _ hx.2.1, generateTimes_good hc _ _ _ _ (hc.add _ _ ha hA) hg t ht⟩
      · rw [List.mem_singleton] at hr
        subst hr
        exact hx

theorem fillRows_good (hc : Closed c keyOk cellsOk timeOk) (hst : c.strategy = .forward ∨ c.strategy = .median) (key : K)
    (hk : keyOk key) :
    ∀ (rows : List (TsRow K S)) (last : TsRow K S), GoodRow keyOk cellsOk timeOk last →
      (∀ r ∈ rows, GoodRow keyOk cellsOk timeOk r) →
      (∀ out, (fillRows c key last rows).1 = .ok out → ∀ r ∈ out, GoodRow keyOk cellsOk timeOk r) ∧
        GoodRow keyOk cellsOk timeOk (fillRows c key last rows).2 := by
  intro rows
  induction rows with
  | nil =>
    intro last hl _
    refine ⟨?_, hl⟩
    intro out h
    simp only [fillRows, Except.ok.injEq] at h
    subst h
    simp
  | cons r rs ih =>
    intro last hl hr
    rw [fillRows]
    rcases hA : (if c.strategy = .forward then tsImpute last.cells r.cells
      else medianCells c.suppress c.types (c.medians.find? key) r.cells) with e | cells
    · exact ⟨fun out h => by simp at h, hl⟩
    · have hr0 := hr r (by simp)
      have hcells : cellsOk cells := by
        split at hA
        · exact hc.impute _ _ _ hl.2.1 hr0.2.1 hA
        · rename_i hf
          exact hc.median (hst.resolve_left hf) _ _ _ hk hr0.2.1 hA
      have hgood : GoodRow keyOk cellsOk timeOk { r with cells := cells } := ⟨hr0.1, hcells, hr0.2.2⟩
      obtain ⟨h1, h2⟩ := ih { r with cells := cells } hgood (fun q hq => hr q (by simp [hq]))
      simp only
      rcases hF : fillRows c key { r with cells := cells } rs with ⟨e | out, last'⟩
      · rw [hF] at h2
        exact ⟨fun out h => by simp at h, h2⟩
      · rw [hF] at h1 h2
        refine ⟨fun o h => ?_, h2⟩
        simp only [Except.ok.injEq] at h
        subst h
        intro q hq
        rcases List.mem_cons.1 hq with rfl | hq
        · exact hgood
        · exact h1 out rfl q hq

theorem backRows_good (hc : Closed c keyOk cellsOk timeOk) :
    ∀ (rows : List (TsRow K S)) (last : TsRow K S) (out : List (TsRow K S)), GoodRow keyOk cellsOk timeOk last →
      (∀ r ∈ rows, GoodRow keyOk cellsOk timeOk r) → backRows last rows = .ok out →
      ∀ r ∈ out, GoodRow keyOk cellsOk timeOk r := by
  intro rows
  induction rows with
  | nil =>
    intro last out _ _ h
    simp only [backRows, Except.ok.injEq] at h
    subst h
    simp
  | cons r rs ih =>
    intro last out hl hr h
    rw [backRows] at h
    rcases hA : tsImpute last.cells r.cells with e | cells
    · rw [hA] at h
      simp at h
    · have hr0 := hr r (by simp)
      have hgood : GoodRow keyOk cellsOk timeOk { r with cells := cells } :=
        ⟨hr0.1, hc.impute _ _ _ hl.2.1 hr0.2.1 hA, hr0.2.2⟩
      rw [hA] at h
      simp only at h
      rcases hB : backRows { r with cells := cells } rs with e | rows
      · rw [hB] at h
        simp at h
      · rw [hB] at h
        simp only [Except.ok.injEq] at h
        subst h
        intro q hq
        rcases List.mem_cons.1 hq with rfl | hq
        · exact hgood
        · exact ih _ _ hgood (fun q hq => hr q (by simp [hq])) hB q hq

theorem GoodState.setLast {t : TsImputer K S} (h : GoodState keyOk cellsOk timeOk t) (k : K) {r : TsRow K S}
    (hr : GoodRow keyOk cellsOk timeOk r) : GoodState keyOk cellsOk timeOk { t with last := t.last.set k r } := by
  refine ⟨fun j q hq => ?_, h.buffer⟩
  by_cases hj : j = k
  · subst hj
    simp only [OMap.find?_set_self, Option.some.injEq] at hq
    subst hq
    exact hr
  · simp only [OMap.find?_set_other _ _ _ _ hj] at hq
    exact h.last j q hq

theorem exec_good (hc : Closed c keyOk cellsOk timeOk) (t : TsImputer K S) (ht : GoodState keyOk cellsOk timeOk t)
    (x : TsIn K S) (hx : GoodRow keyOk cellsOk timeOk x.row) :
    (∀ r ∈ ((tsImputerXf c).exec t x).outs, GoodRow keyOk cellsOk timeOk r) ∧
      GoodState keyOk cellsOk timeOk ((tsImputerXf c).exec t x).next := by
  have hlast : GoodRow keyOk cellsOk timeOk ((t.last.find? x.key).getD x.row) := by
    rcases h : t.last.find? x.key with _ | r
    · exact hx
    · exact ht.last _ _ h
  have hfill : c.strategy = .forward ∨ c.strategy = .median → (∀ r ∈ (t.fill c x).outs, GoodRow keyOk cellsOk timeOk r) ∧
      GoodState keyOk cellsOk timeOk (t.fill c x).next := by
    intro hst
    simp only [TsImputer.fill]
    generalize (t.last.find? x.key).getD x.row = lastRow at hlast
    rcases hg : generateRows c.frequency c.space x lastRow.time with e | rows
    · exact ⟨by simp, ht.setLast _ hlast⟩
    · simp only
      obtain ⟨h1, h2⟩ := fillRows_good hc hst x.key hx.1 rows lastRow hlast (generateRows_good hc _ _ _ hx hlast.2.2 _ hg)
      rcases hF : fillRows c x.key lastRow rows with ⟨e | out, last'⟩
      · rw [hF] at h2
        exact ⟨by simp, ht.setLast _ h2⟩
      · rw [hF] at h1 h2
        exact ⟨h1 out rfl, ht.setLast _ h2⟩
  have hback : (∀ r ∈ (t.back c x).outs, GoodRow keyOk cellsOk timeOk r) ∧
      GoodState keyOk cellsOk timeOk (t.back c x).next := by
    simp only [TsImputer.back]
    generalize (t.last.find? x.key).getD x.row = lastRow at hlast
    rcases hg : generateRows c.frequency c.space x lastRow.time with e | rows
    · exact ⟨by simp, ht.setLast _ hlast⟩
    · simp only
      have hrows := generateRows_good hc _ _ _ hx hlast.2.2 _ hg
      have hbuf : ∀ r ∈ (t.buffer.find? x.key).getD [] ++ rows, GoodRow keyOk cellsOk timeOk r := by
        intro r hr
        rcases List.mem_append.1 hr with hr | hr
        · rcases h : t.buffer.find? x.key with _ | rs
          · rw [h] at hr
            simp at hr
          · rw [h] at hr
            exact ht.buffer _ _ h r hr
        · exact hrows r hr
      generalize (t.buffer.find? x.key).getD [] ++ rows = buffer at hbuf
      rcases hrev : buffer.reverse with _ | ⟨b, tl⟩
      · exact ⟨by simp, ht⟩
      · simp only
        have hrv : ∀ r ∈ b :: tl, GoodRow keyOk cellsOk timeOk r := fun r hr =>
          hbuf r (List.mem_reverse.1 (hrev ▸ hr))
        rcases hB : backRows b (b :: tl) with e | out
        · exact ⟨by simp, ht⟩
        · have hout := backRows_good hc _ _ _ (hrv b (by simp)) hrv hB
          cases out with
          | nil => exact ⟨by simp, ht⟩
          | cons b' front =>
            simp only
            refine ⟨fun r hr => ?_, ?_, ?_⟩
            · have := (List.takeWhile_sublist _).subset hr
              exact hout r (List.mem_reverse.1 this)
            · exact (ht.setLast x.key (hout b' (by simp))).last
            · intro j rs hj r hr
              by_cases hjk : j = x.key
              · subst hjk
                simp only [OMap.find?_set_self, Option.some.injEq] at hj
                subst hj
                exact hout r (List.mem_reverse.1 (List.mem_of_mem_drop hr))
              · simp only [OMap.find?_set_other _ _ _ _ hjk] at hj
                exact ht.buffer j rs hj r hr
  simp only [tsImputerXf, TsImputer.exec]
  split
  · exact ⟨by simp, ht⟩
  · rcases hst : c.strategy with _ | _ | _ | _
    · exact hfill (.inl hst)
    · exact hback
    · exact hfill (.inr hst)
    · exact ⟨by simp, ht⟩

end

section
variable [TextTraits F32] [TextTraits F64]

/-- Texts of key values of the given types that come back. -/
def KeysOk (ids : List UInt32) (k : List Str) : Prop :=
  ∃ cs : List Cell, cs.map Cell.typeId = ids ∧ (∀ c ∈ cs, c.Fits ∧ c.Exact) ∧ k = cs.map fun c => ⟨c.text⟩

/-- Texts that show data values of the given types, in the sense of `R`. -/
def CellsOk (R : Datum → Option Str → Prop) (ids : List UInt32) (cells : List (Option Str)) : Prop :=
  ∃ ds : List Datum, ds.map Datum.typeId = ids ∧ (∀ d ∈ ds, d.Fits) ∧ List.Forall₂ R ds cells

/-- A whole second within the range of the clock. -/
def TimeOk (t : Int) : Prop := (1000000000 : Int) ∣ t ∧ -2 ^ 63 ≤ t ∧ t < 2 ^ 63

omit [TextTraits F32] [TextTraits F64] in
theorem CellsOk.cons {R : Datum → Option Str → Prop} {id : UInt32} {ids : List UInt32} {d : Datum} {t : Option Str}
    {cells : List (Option Str)} (h : CellsOk R ids cells) (h1 : d.typeId = id) (h2 : d.Fits ∧ R d t) :
    CellsOk R (id :: ids) (t :: cells) := by
  obtain ⟨ds, a, b, e⟩ := h
  refine ⟨d :: ds, by simp [a, h1], ?_, .cons h2.2 e⟩
  intro d' hd
  rcases List.mem_cons.1 hd with rfl | hd
  · exact h2.1
  · exact b _ hd

omit [TextTraits F32] [TextTraits F64] in
theorem CellsOk.nil_iff {R : Datum → Option Str → Prop} {cells : List (Option Str)} (h : CellsOk R [] cells) : cells = [] := by
  obtain ⟨ds, a, _, e⟩ := h
  simp at a
  subst a
  cases e
  rfl

omit [TextTraits F32] [TextTraits F64] in
theorem CellsOk.uncons {R : Datum → Option Str → Prop} {id : UInt32} {ids : List UInt32} {cells : List (Option Str)}
    (h : CellsOk R (id :: ids) cells) :
    ∃ (d : Datum) (t : Option Str) (rest : List (Option Str)), cells = t :: rest ∧ d.typeId = id ∧ (d.Fits ∧ R d t) ∧
      CellsOk R ids rest := by
  obtain ⟨ds, a, b, e⟩ := h
  cases e with
  | nil => simp at a
  | @cons d t ds rest h1 h2 =>
    simp only [List.map_cons, List.cons.injEq] at a
    exact ⟨d, t, rest, rfl, a.1, ⟨b d (by simp), h1⟩, ds, a.2, fun d' hd => b d' (by simp [hd]), h2⟩

omit [TextTraits F32] [TextTraits F64] in
theorem supported_of_fits {d : Datum} (h : d.Fits) : Supported d.typeId := by
  cases d with
  | null id => exact h
  | value c => cases c <;> (simp only [Datum.typeId, Cell.typeId]; decide)

omit [TextTraits F32] [TextTraits F64] in
theorem impute_ok (R : Datum → Option Str → Prop) (ids : List UInt32) :
    ∀ a b r, CellsOk R ids a → CellsOk R ids b → tsImpute a b = .ok r → CellsOk R ids r := by
  induction ids with
  | nil =>
    intro a b r ha hb h
    rw [hb.nil_iff] at h
    rw [show tsImpute a ([] : List (Option Str)) = .ok [] by cases a <;> rfl] at h
    simp only [Except.ok.injEq] at h
    subst h
    exact ⟨[], rfl, by simp, .nil⟩
  | cons id ids ih =>
    intro a b r ha hb h
    obtain ⟨d, t, a, rfl, hd1, hd2, ha⟩ := ha.uncons
    obtain ⟨d', t', b, rfl, hd1', hd2', hb'⟩ := hb.uncons
    rcases t' with _ | v
    · rw [tsImpute] at h
      rcases hi : tsImpute a b with e | cs
      · rw [hi] at h
        simp at h
      · rw [hi] at h
        simp only [Except.ok.injEq] at h
        subst h
        exact (ih a b cs ha hb' hi).cons hd1 hd2
    · rw [tsImpute] at h
      rcases hi : tsImpute a b with e | cs
      · rw [List.tail_cons, hi] at h
        simp at h
      · rw [List.tail_cons, hi] at h
        simp only [Except.ok.injEq] at h
        subst h
        exact (ih a b cs ha hb' hi).cons hd1' hd2'

omit [TextTraits F32] [TextTraits F64] in
theorem nulls_ok (R : Datum → Option Str → Prop) (hR : ∀ id, R (.null id) none) (ids : List UInt32) :
    ∀ a, CellsOk R ids a → CellsOk R ids (List.replicate a.length none) := by
  induction ids with
  | nil =>
    intro a ha
    rw [ha.nil_iff]
    exact ⟨[], rfl, by simp, .nil⟩
  | cons id ids ih =>
    intro a ha
    obtain ⟨d, t, a, rfl, hd1, hd2, ha⟩ := ha.uncons
    rw [List.length_cons, List.replicate_succ]
    refine (ih a ha).cons (d := .null id) rfl ⟨?_, hR id⟩
    show Supported id
    rw [← hd1]
    exact supported_of_fits hd2.1

/-- The medians of a key, as texts: one for every data column; those of columns that are filled with medians show values. -/
def MediansOk (R : Datum → Option Str → Prop) (ids : List UInt32) (ms : List Str) : Prop :=
  List.Forall₂ (fun id m => supportsMedian id = true → ∃ d : Datum, d.typeId = id ∧ d.Fits ∧ R d (some m)) ids ms

omit [TextTraits F32] [TextTraits F64] in
theorem median_ok (R : Datum → Option Str → Prop) (suppress : Bool) (ids : List UInt32) : ∀ (ms : Option (List Str)) a r,
    (∀ l, ms = some l → MediansOk R ids l) → CellsOk R ids a →
    medianCells suppress ids ms a = .ok r → CellsOk R ids r := by
  induction ids with
  | nil =>
    intro ms a r hm ha h
    rw [ha.nil_iff] at h
    simp only [medianCells, Except.ok.injEq] at h
    subst h
    exact ⟨[], rfl, by simp, .nil⟩
  | cons id ids ih =>
    intro ms a r hm ha h
    obtain ⟨d, t, a, rfl, hd1, hd2, ha⟩ := ha.uncons
    simp only [medianCells] at h
    have htail : ∀ l, ms.map List.tail = some l → MediansOk R ids l := by
      intro l hl
      rcases ms with _ | l'
      · simp at hl
      · simp only [Option.map_some, Option.some.injEq] at hl
        have := hm l' rfl
        subst hl
        cases this with
        | cons _ h9 => exact h9
    split at h
    · simp at h
    · rename_i cell hcell
      rcases hr : medianCells suppress ids (ms.map List.tail) a with e | cs
      · rw [hr] at h
        simp at h
      · rw [hr] at h
        simp only [Except.ok.injEq] at h
        subst h
        have hrest := ih _ _ _ htail ha hr
        have hd : ∃ d' : Datum, d'.typeId = id ∧ (d'.Fits ∧ R d' cell) := by
          split at hcell
          · simp only [Except.ok.injEq] at hcell
            exact ⟨d, hd1, hcell ▸ hd2⟩
          · rename_i hsup
            split at hcell
            · simp only [Except.ok.injEq] at hcell
              exact ⟨d, hd1, hcell ▸ hd2⟩
            · split at hcell
              · split at hcell
                · simp only [Except.ok.injEq] at hcell
                  exact ⟨d, hd1, hcell ▸ hd2⟩
                · simp at hcell
              · simp at hcell
              · rename_i m tl
                simp only [Except.ok.injEq] at hcell
                have := hm (m :: tl) rfl
                cases this with
                | cons h0 _ =>
                  obtain ⟨d', a1, a2, a3⟩ := h0 (by simpa using hsup)
                  exact ⟨d', a1, a2, hcell ▸ a3⟩
        obtain ⟨d', e1, e2⟩ := hd
        exact hrest.cons e1 e2

omit [TextTraits F32] [TextTraits F64] in
theorem addTime_ok {f : Int} (hf : (1000000000 : Int) ∣ f) (t t' : Int) (h : TimeOk t) (ha : addTime t f = .ok t') :
    TimeOk t' := by
  unfold addTime at ha
  split at ha
  · simp only [Except.ok.injEq] at ha
    subst ha
    exact ⟨Int.dvd_add h.1 hf, by assumption⟩
  · simp at ha

/-- What is known of the values that texts show: nulls, and what is written for a text. -/
structure Shown (R : Datum → Option Str → Prop) : Prop where
  null : ∀ id, R (.null id) none
  writes : ∀ (d : Datum) t, d.Fits → R d t → Writes (saveData d.typeId t) d.bytes

theorem shown_exactly : Shown Datum.Exactly :=
  ⟨fun _ => ⟨trivial, rfl⟩, fun d t h hR => by
    obtain ⟨he, rfl⟩ := hR
    exact saveData_spec d h he⟩

/-- The transformer belongs to the serializer, with replacement values in the sense of `R`. -/
structure MatchesBy (R : Datum → Option Str → Prop) (s : Serializer) (c : TsConfig (List Str) Str) : Prop where
  types : c.types = s.datas
  frequency : (1000000000 : Int) ∣ c.frequency
  medians : c.strategy = .median → ∀ k ms, c.medians.find? k = some ms → MediansOk R s.datas ms

/-- A transformer that goes with a row serializer: the same data types, a frequency of whole seconds, and medians that come
back from their texts. -/
abbrev Matches (s : Serializer) (c : TsConfig (List Str) Str) : Prop := MatchesBy Datum.Exactly s c

theorem MatchesBy.closed {R : Datum → Option Str → Prop} (hR : Shown R) {s : Serializer} {c : TsConfig (List Str) Str}
    (h : MatchesBy R s c) : Closed c (KeysOk s.keys) (CellsOk R s.datas) TimeOk where
  impute := impute_ok R s.datas
  nulls := nulls_ok R hR.null s.datas
  median hst k a r _ ha hr := by
    rw [h.types] at hr
    exact median_ok R _ _ _ a r (fun l hl => h.medians hst k l hl) ha hr
  add := addTime_ok h.frequency

theorem goodRow_of {R : Datum → Option Str → Prop} {s : Serializer} (o : TsRow (List Str) Str)
    (h : GoodRow (KeysOk s.keys) (CellsOk R s.datas) TimeOk o) : ∃ w : Row, KeyRow s w ∧ RowBy R (o.added, w) o := by
  obtain ⟨⟨cs, a1, a2, a3⟩, ⟨ds, b1, b2, b3⟩, ⟨z, hz⟩, h1, h2⟩ := h
  have e : (Int64.ofInt z).toInt = z := Int64.toInt_ofInt_of_le (by omega) (by omega)
  refine ⟨⟨Int64.ofInt z, cs, ds⟩, ⟨?_, ⟨?_, fun c hc => (a2 c hc).1, b2⟩, fun c hc => (a2 c hc).2⟩, rfl, ?_, a3, b3⟩
  · simp only [Row.types, a1, b1]
  · simp only [e]
    omega
  · rw [e]
    omega

theorem goodRow_in {R : Datum → Option Str → Prop} {s : Serializer} (w : Row) (h : KeyRow s w)
    (hd : List.Forall₂ R w.datas (w.datas.map Datum.text)) :
    GoodRow (KeysOk s.keys) (CellsOk R s.datas) TimeOk (w.out false) := by
  obtain ⟨rfl, hf, he⟩ := h
  exact ⟨⟨w.keys, rfl, fun c hc => ⟨hf.keys c hc, he c hc⟩, rfl⟩, ⟨w.datas, rfl, hf.datas, hd⟩,
    Int.dvd_mul_left _ _, hf.time⟩

theorem goodRows {R : Datum → Option Str → Prop} {s : Serializer} (os : List (TsRow (List Str) Str))
    (h : ∀ o ∈ os, GoodRow (KeysOk s.keys) (CellsOk R s.datas) TimeOk o) :
    ∃ ws : List (Bool × Row), (∀ w ∈ ws, KeyRow s w.2) ∧ List.Forall₂ (RowBy R) ws os := by
  induction os with
  | nil => exact ⟨[], by simp, .nil⟩
  | cons o os ih =>
    obtain ⟨w, hw, e⟩ := goodRow_of o (h o (by simp))
    obtain ⟨ws, hws, es⟩ := ih (fun o ho => h o (by simp [ho]))
    refine ⟨(o.added, w) :: ws, ?_, .cons e es⟩
    intro w' hw'
    rcases List.mem_cons.1 hw' with rfl | hw'
    · exact hw
    · exact hws w' hw'

theorem saveDatas_by {R : Datum → Option Str → Prop} (hR : Shown R) {ds : List Datum} {ts : List (Option Str)}
    (h : List.Forall₂ R ds ts) (hf : ∀ d ∈ ds, d.Fits) :
    Writes (saveDatas (ds.map Datum.typeId) ts) (ds.flatMap Datum.bytes) := by
  induction h with
  | nil => exact Writes.pure
  | cons h1 _ ih => exact Writes.bind (hR.writes _ _ (hf _ (by simp)) h1) (ih fun d hd => hf d (by simp [hd]))

theorem writeRow_by {R : Datum → Option Str → Prop} (hR : Shown R) {s : Serializer} {w : Bool × Row}
    {o : TsRow (List Str) Str} (hw : KeyRow s w.2) (h : RowBy R w o) :
    Writes (s.writeRow o) ((if w.1 then 1 else 0) :: w.2.bytes) := by
  obtain ⟨rfl, hf, he⟩ := hw
  obtain ⟨h1, h2, h3, h4⟩ := h
  have e : (if w.1 then 1 else 0) :: w.2.bytes = [if w.1 then 1 else 0] ++ w.2.bytes := rfl
  rw [e, Row.bytes, List.append_assoc]
  unfold Serializer.writeRow
  rw [h1, h2, h3]
  exact Writes.bind (Law.bool w.1).writes (Writes.bind (Law.time w.2.seconds hf.time).writes
    (Writes.bind (saveKeys_spec w.2.keys hf.keys he) (saveDatas_by hR h4 hf.datas)))

theorem writeRows_by {R : Datum → Option Str → Prop} (hR : Shown R) (s : Serializer) (host : Endian) (space : Nat)
    {ws : List (Bool × Row)} {os : List (TsRow (List Str) Str)} (h : List.Forall₂ (RowBy R) ws os)
    (hw : ∀ w ∈ ws, KeyRow s w.2) :
    s.writeRows host space os = .ok (ws.map fun w => (if w.1 then 1 else 0) :: w.2.bytes) := by
  induction h with
  | nil => rfl
  | cons h1 _ ih =>
    have := writeRow_by hR (hw _ (by simp)) h1 (Archive.mkWriter host space) rfl
    rw [Serializer.writeRows, this, ih (fun w hm => hw w (by simp [hm]))]
    rfl

theorem serialize_by {R : Datum → Option Str → Prop} (hR : Shown R) (s : Serializer) (host : Endian) (space : Nat)
    {ws : List (Bool × Row)} {os : List (TsRow (List Str) Str)} (h : List.Forall₂ (RowBy R) ws os)
    (hw : ∀ w ∈ ws, KeyRow s w.2) :
    s.serialize host space os = .ok (if ws = [] then none else some (ws.map fun w => (if w.1 then 1 else 0) :: w.2.bytes)) := by
  unfold Serializer.serialize
  by_cases hz : ws = []
  · subst hz
    cases h
    rfl
  · have : os ≠ [] := by
      rintro rfl
      cases h
      exact hz rfl
    rw [if_neg (by simpa using this), if_neg hz, writeRows_by hR s host space h hw]

theorem history_by {R : Datum → Option Str → Prop} (hR : Shown R) (s : Serializer) (c : TsConfig (List Str) Str)
    (hm : MatchesBy R s c) (host : Endian) (space : Nat) (calls : List Call)
    (h : ∀ x ∈ calls, KeyRow s x.row ∧ List.Forall₂ R x.row.datas (x.row.datas.map Datum.text) ∧
      Roomy space x.base (x.row.bytes ++ x.junk).length) :
    List.Forall₂ (AnswerBy R s) (runsOf (tsImputerXf c) .new (calls.map fun x => x.row.text))
      (Memory.transformAll host space (calls.map fun x => some (x.base, x.row.bytes ++ x.junk)) ⟨s, c, .new⟩).1 := by
  have key : ∀ (calls : List Call) (t : TsImputer (List Str) Str),
      GoodState (KeysOk s.keys) (CellsOk R s.datas) TimeOk t →
      (∀ x ∈ calls, KeyRow s x.row ∧ List.Forall₂ R x.row.datas (x.row.datas.map Datum.text) ∧
        Roomy space x.base (x.row.bytes ++ x.junk).length) →
      List.Forall₂ (AnswerBy R s) (runsOf (tsImputerXf c) t (calls.map fun x => x.row.text))
        (Memory.transformAll host space (calls.map fun x => some (x.base, x.row.bytes ++ x.junk)) ⟨s, c, t⟩).1 := by
    intro calls
    induction calls with
    | nil => intro t _ _; exact .nil
    | cons x xs ih =>
      intro t ht h
      obtain ⟨h1, h2, h4⟩ := h x (by simp)
      have hread := C66_read x.row h1.2.1 host space x.base x.junk h4
      rw [h1.1] at hread
      have hgood := exec_good (hm.closed hR) t ht x.row.text (goodRow_in x.row h1 h2)
      have hstep : AnswerBy R s ((tsImputerXf c).exec t x.row.text)
          (Memory.transform host space (some (x.base, x.row.bytes ++ x.junk)) ⟨s, c, t⟩).1 ∧
          (Memory.transform host space (some (x.base, x.row.bytes ++ x.junk)) ⟨s, c, t⟩).2 =
            ⟨s, c, ((tsImputerXf c).exec t x.row.text).next⟩ := by
        unfold Memory.transform AnswerBy
        simp only [hread]
        rcases he : ((tsImputerXf c).exec t x.row.text).err with _ | e
        · obtain ⟨ws, hws, es⟩ := goodRows _ hgood.1
          exact ⟨⟨ws, hws, es, serialize_by hR s host space es hws⟩, rfl⟩
        · exact ⟨rfl, rfl⟩
      rw [List.map_cons, runsOf, List.map_cons, Memory.transformAll]
      simp only
      rw [hstep.2]
      exact .cons hstep.1 (ih _ hgood.2 (fun y hy => h y (by simp [hy])))
  refine key calls .new ⟨fun k r hr => ?_, fun k r hr => ?_⟩ h
  · simp [TsImputer.new, OMap.find?_empty] at hr
  · simp [TsImputer.new, OMap.find?_empty] at hr

theorem exactly_self {ds : List Datum} (h : ∀ d ∈ ds, d.Exact) : List.Forall₂ Datum.Exactly ds (ds.map Datum.text) := by
  induction ds with
  | nil => exact .nil
  | cons d ds ih => exact .cons ⟨h d (by simp), rfl⟩ (ih fun d hd => h d (by simp [hd]))

theorem exactly_eq {ds : List Datum} {ts : List (Option Str)} (h : List.Forall₂ Datum.Exactly ds ts) :
    (∀ d ∈ ds, d.Exact) ∧ ts = ds.map Datum.text := by
  induction h with
  | nil => exact ⟨by simp, rfl⟩
  | cons h1 _ ih =>
    refine ⟨fun d hd => ?_, by rw [List.map_cons, h1.2, ← ih.2]⟩
    rcases List.mem_cons.1 hd with rfl | hd
    · exact h1.1
    · exact ih.1 d hd

theorem answer_exactly {T : Type} {s : Serializer} {r : Run T (TsRow (List Str) Str)}
    {out : Except Err (Option (List (List UInt8)))} (h : AnswerBy Datum.Exactly s r out) : Answer s r out := by
  unfold AnswerBy at h
  unfold Answer
  rcases he : r.err with _ | e
  · rw [he] at h
    obtain ⟨ws, h1, h2, h3⟩ := h
    have key : ∀ (ws : List (Bool × Row)) (os : List (TsRow (List Str) Str)), (∀ w ∈ ws, KeyRow s w.2) →
        List.Forall₂ (RowBy Datum.Exactly) ws os →
        (∀ w ∈ ws, w.2.types = s ∧ w.2.Fits ∧ w.2.Exact) ∧ os = ws.map (fun w => w.2.out w.1) := by
      intro ws os hk h
      induction h with
      | nil => exact ⟨by simp, rfl⟩
      | @cons w o ws os h1 _ ih =>
        obtain ⟨i1, i2⟩ := ih fun w hw => hk w (by simp [hw])
        obtain ⟨k1, k2, k3⟩ := hk w (by simp)
        obtain ⟨r1, r2, r3, r4⟩ := h1
        obtain ⟨r5, r6⟩ := exactly_eq r4
        refine ⟨fun w' hw' => ?_, ?_⟩
        · rcases List.mem_cons.1 hw' with rfl | hw'
          · exact ⟨k1, k2, k3, r5⟩
          · exact i1 w' hw'
        · rw [List.map_cons, ← i2]
          congr 1
          obtain ⟨added, time, ky, cells⟩ := o
          simp only at r1 r2 r3 r6
          subst r1 r2 r3 r6
          rfl
    obtain ⟨k1, k2⟩ := key ws r.outs h1 h2
    exact ⟨ws, k1, k2, h3⟩
  · rw [he] at h
    exact h

/-- **C66, histories of rows (partial).**  For every sequence of `Transform` calls with rows of the declared types whose
values come back from their texts, on any host, at any addresses and with any further bytes in the buffers, the interface
answers what the transformer does with the texts: the same exception, or the bytes of exactly the rows it puts out. -/
theorem C66_history_partial (s : Serializer) (c : TsConfig (List Str) Str) (hm : Matches s c) (host : Endian) (space : Nat)
    (calls : List Call) (h : ∀ x ∈ calls, x.row.types = s ∧ x.row.Fits ∧ x.row.Exact ∧
      Roomy space x.base (x.row.bytes ++ x.junk).length) :
    List.Forall₂ (Answer s) (runsOf (tsImputerXf c) .new (calls.map fun x => x.row.text))
      (Memory.transformAll host space (calls.map fun x => some (x.base, x.row.bytes ++ x.junk)) ⟨s, c, .new⟩).1 := by
  have key := history_by shown_exactly s c hm host space calls fun x hx => by
    obtain ⟨h1, h2, h3, h4⟩ := h x hx
    exact ⟨⟨h1, h2, h3.keys⟩, exactly_self h3.datas, h4⟩
  exact key.imp fun _ _ h => answer_exactly h

/-! ### What does not come back -/

omit [TextTraits F32] [TextTraits F64] in
theorem M.error_bind {α β : Type} {m : M Archive α} {f : α → M Archive β} {a : Archive}
    (h : (∃ e, (m a).1 = .error e) ∨ ∀ x a', ∃ e, (f x a').1 = .error e) : ∃ e, ((m >>= f) a).1 = .error e := by
  rw [M.bind_run]
  rcases hm : m a with ⟨e | x, a'⟩
  · exact ⟨e, rfl⟩
  · rcases h with ⟨e, h⟩ | h
    · rw [hm] at h
      simp at h
    · exact h x a'

/-- The statement without restriction on the values: every row of supported types that is read comes back as its bytes. -/
def C66Claim : Prop := ∀ (r : Row), r.Fits → ∀ (host : Endian) (space : Nat),
  r.types.serialize host space [r.out false] = .ok (some [0 :: r.bytes])

/-- **C66, durations.**  A row with a duration in a key column, or a duration that is not null in a data column, is never
written, whatever its texts are. -/
theorem C66_duration (s : Serializer) (o : TsRow (List Str) Str) (hk : o.key.length = s.keys.length)
    (hd : o.cells.length = s.datas.length)
    (h : 18 ∈ s.keys ∨ ∃ (i : Nat) (v : Str), s.datas[i]? = some 18 ∧ o.cells[i]? = some (some v))
    (host : Endian) (space : Nat) : ∃ e, s.serialize host space [o] = .error e := by
  have hkeys : ∀ (ids : List UInt32) (ss : List Str), ss.length = ids.length → 18 ∈ ids →
      ∀ a, ∃ e, (saveKeys ids ss a).1 = .error e := by
    intro ids
    induction ids with
    | nil => intro ss _ hm; simp at hm
    | cons id ids ih =>
      intro ss hl hm a
      cases ss with
      | nil => simp at hl
      | cons x ss =>
        rw [saveKeys]
        apply M.error_bind
        rcases List.mem_cons.1 hm with h | h
        · subst h
          exact .inl ⟨.logicError, rfl⟩
        · exact .inr fun _ a' => ih ss (by simpa using hl) h a'
  have hdatas : ∀ (ids : List UInt32) (cs : List (Option Str)) (i : Nat) (v : Str), cs.length = ids.length →
      ids[i]? = some 18 → cs[i]? = some (some v) → ∀ a, ∃ e, (saveDatas ids cs a).1 = .error e := by
    intro ids
    induction ids with
    | nil => intro cs i v _ hi; simp at hi
    | cons id ids ih =>
      intro cs i v hl hi hc a
      cases cs with
      | nil => simp at hl
      | cons c cs =>
        rw [saveDatas]
        apply M.error_bind
        cases i with
        | zero =>
          simp only [List.getElem?_cons_zero, Option.some.injEq] at hi hc
          subst hi hc
          exact .inl ⟨.logicError, rfl⟩
        | succ i => exact .inr fun _ a' => ih cs i v (by simpa using hl) (by simpa using hi) (by simpa using hc) a'
  have hrow : ∀ a, ∃ e, (s.writeRow o a).1 = .error e := by
    intro a
    unfold Serializer.writeRow
    refine M.error_bind (.inr fun _ a => M.error_bind (.inr fun _ a => M.error_bind ?_))
    rcases h with h | ⟨i, v, h1, h2⟩
    · exact .inl (hkeys _ _ hk h a)
    · exact .inr fun _ a' => hdatas _ _ i v hd h1 h2 a'
  obtain ⟨e, he⟩ := hrow (Archive.mkWriter host space)
  refine ⟨e, ?_⟩
  unfold Serializer.serialize
  rw [if_neg (by simp), Serializer.writeRows]
  rcases hw : s.writeRow o (Archive.mkWriter host space) with ⟨e' | u, a'⟩
  · rw [hw] at he
    simp only [Except.error.injEq] at he
    subst he
    rfl
  · rw [hw] at he
    simp at he

/-- **C66 is false** without the restriction: a row with a duration is read, but not written. -/
theorem C66_false : ¬ C66Claim := by
  intro h
  have := h ⟨0, [.duration 0], [.null 1]⟩ ⟨by decide, by simp [Cell.Fits], by simp [Datum.Fits, Supported]⟩ .little 0
  obtain ⟨e, he⟩ := C66_duration (⟨0, [.duration 0], [.null 1]⟩ : Row).types
    ((⟨0, [.duration 0], [.null 1]⟩ : Row).out false) rfl rfl (.inl (by simp [Row.types, Cell.typeId])) .little 0
  rw [he] at this
  simp at this

/-- **C66, types without implementation.**  A type can be declared for a column and be valid, and yet no row with such a
column is ever read: whatever the buffer, reading it fails. -/
theorem C66_unsupported (s : Serializer) (id : UInt32) (hid : id ∈ s.keys ++ s.datas) (h : ¬ Supported id) (host : Endian)
    (space : Nat) (b : Buffer) : ∃ e, s.readBuffer host space b = .error e := by
  simp only [Supported, List.mem_cons, List.not_mem_nil, or_false, not_or] at h
  have hk : ∀ a, ∃ e, (loadKey id a).1 = .error e := by
    have e : loadKey id = M.throw .runtimeError := by
      unfold loadKey
      split <;> first | (exfalso; omega) | rfl
    intro a
    exact ⟨.runtimeError, by rw [e]; rfl⟩
  have hd : ∀ a, ∃ e, (loadData id a).1 = .error e := by
    have e : loadData id = M.throw .runtimeError := by
      unfold loadData
      split <;> first | (exfalso; omega) | rfl
    intro a
    exact ⟨.runtimeError, by rw [e]; rfl⟩
  have hkeys : ∀ ids : List UInt32, id ∈ ids → ∀ a, ∃ e, (loadKeys ids a).1 = .error e := by
    intro ids
    induction ids with
    | nil => intro hm; simp at hm
    | cons j ids ih =>
      intro hm a
      rw [loadKeys]
      rcases List.mem_cons.1 hm with h | h
      · subst h
        exact M.error_bind (.inl (hk a))
      · exact M.error_bind (.inr fun _ a => M.error_bind (.inl (ih h a)))
  have hdatas : ∀ ids : List UInt32, id ∈ ids → ∀ a, ∃ e, (loadDatas ids a).1 = .error e := by
    intro ids
    induction ids with
    | nil => intro hm; simp at hm
    | cons j ids ih =>
      intro hm a
      rw [loadDatas]
      rcases List.mem_cons.1 hm with h | h
      · subst h
        exact M.error_bind (.inl (hd a))
      · exact M.error_bind (.inr fun _ a => M.error_bind (.inl (ih h a)))
  unfold Serializer.readBuffer
  rcases b with _ | ⟨base, bytes⟩
  · exact ⟨_, rfl⟩
  · simp only
    split
    · exact ⟨_, rfl⟩
    · unfold Serializer.readRow
      refine M.error_bind (.inr fun _ a => ?_)
      rcases List.mem_append.1 hid with h | h
      · exact M.error_bind (.inl (hkeys _ h a))
      · exact M.error_bind (.inr fun _ a => M.error_bind (.inl (hdatas _ h a)))

/-- **C66, NaN is null.**  In a data column of floating point numbers every NaN, not only the one that is written for null,
is read as null. -/
theorem C66_nan (seconds : Int64) (keys : List Cell) (h : (⟨seconds, keys, []⟩ : Row).Fits) (x : F32) (y : F64)
    (hx : isNaN32 x = true) (hy : isNaN64 y = true) (host : Endian) (space base : Nat)
    (hroom : Roomy space base ((⟨seconds, keys, []⟩ : Row).bytes ++ leBytes 4 x.bits.toNat ++ leBytes 8 y.bits.toNat).length) :
    Serializer.readBuffer ⟨keys.map Cell.typeId, [11, 12]⟩ host space
        (some (base, (⟨seconds, keys, []⟩ : Row).bytes ++ leBytes 4 x.bits.toNat ++ leBytes 8 y.bits.toNat)) =
      .ok ⟨seconds.toInt * 1000000000, keys.map fun c => ⟨c.text⟩, [none, none]⟩ := by
  have l := Law.time seconds h.time
  obtain ⟨rk, _⟩ := loadKeys_spec keys h.keys
  have h1 := float_reads x
  have h2 := double_reads y
  rw [if_pos hx] at h1
  rw [if_pos hy] at h2
  have rd : Reads (loadDatas [11, 12]) (leBytes 4 x.bits.toNat ++ leBytes 8 y.bits.toNat) [none, none] := by
    have r0 : Reads (loadDatas []) [] [] := Reads.pure _
    have r2 : Reads (loadDatas [12]) (leBytes 8 y.bits.toNat ++ []) [none] := Reads.bind h2 (Reads.map _ r0)
    rw [List.append_nil] at r2
    exact Reads.bind h1 (Reads.map _ r2)
  have e : (⟨seconds.toInt * 1000000000, keys.map fun c => ⟨c.text⟩, [none, none]⟩ : TsIn (List Str) Str) =
      ⟨(Int64.ofInt (seconds.toInt * 1000000000)).toInt, keys.map fun c => ⟨c.text⟩, [none, none]⟩ := by
    rw [Int64.toInt_ofInt_of_le h.time.1 h.time.2]
  have all : Reads (Serializer.readRow ⟨keys.map Cell.typeId, [11, 12]⟩)
      (leBytes 8 seconds.toUInt64.toNat ++ (keys.flatMap Cell.bytes ++ (leBytes 4 x.bits.toNat ++ leBytes 8 y.bits.toNat)))
      ⟨seconds.toInt * 1000000000, keys.map fun c => ⟨c.text⟩, [none, none]⟩ := by
    rw [e]
    exact Reads.bind l.reads (Reads.bind rk (Reads.map _ rd))
  have eb : (⟨seconds, keys, []⟩ : Row).bytes ++ leBytes 4 x.bits.toNat ++ leBytes 8 y.bits.toNat =
      leBytes 8 seconds.toUInt64.toNat ++ (keys.flatMap Cell.bytes ++ (leBytes 4 x.bits.toNat ++ leBytes 8 y.bits.toNat)) := by
    simp [Row.bytes]
  rw [eb] at hroom ⊢
  generalize hB : leBytes 8 seconds.toUInt64.toNat ++
    (keys.flatMap Cell.bytes ++ (leBytes 4 x.bits.toNat ++ leBytes 8 y.bits.toNat)) = B at all hroom
  have hne : B.length ≠ 0 := by
    rw [← hB]
    simp [leBytes_length]
  unfold Serializer.readBuffer
  simp only
  rw [if_neg hne]
  have := all host space base [] [] (by simpa using hroom)
  rw [List.append_nil] at this
  rw [show Archive.mkReader host space base B = Archive.rd host space base ([] ++ B) [].length from rfl, this]

/-! ### Flushing -/

/-- The statement that, after any calls of `Transform`, the interface's `Flush` gives what the transformer still holds. -/
def C66FlushClaim : Prop := ∀ (s : Serializer) (c : TsConfig (List Str) Str) (host : Endian) (space : Nat) (bs : List Buffer),
  (Memory.flush (Memory.transformAll host space bs ⟨s, c, .new⟩).2).1 =
    s.serialize host space ((tsImputerXf c).flush (Memory.transformAll host space bs ⟨s, c, .new⟩).2.state).outs

/-- **C66, flushing is false**: with the backward strategy a row whose value is missing waits for a later one; at the end
`Flush` gives nothing, where the transformer has this row. -/
theorem C66_flush_false : ¬ C66FlushClaim := by
  intro h
  have hf : (⟨0, [.str []], [.null 1]⟩ : Row).Fits :=
    ⟨by decide, by simp [Cell.Fits], by simp [Datum.Fits, Supported]⟩
  have he : (⟨0, [.str []], [.null 1]⟩ : Row).Exact := ⟨by simp [Cell.Exact], by simp [Datum.Exact]⟩
  have h1 := h ⟨[1], [1]⟩ ⟨1000000000, [1], .backward, .empty, false, 1⟩ .little (2 ^ 33)
    [some (0, (⟨0, [.str []], [.null 1]⟩ : Row).bytes)]
  have hread := C66_read ⟨0, [.str []], [.null 1]⟩ hf .little (2 ^ 33) 0 [] (by
    simp [Roomy, Row.bytes, Cell.bytes, Datum.bytes, leBytes_length])
  rw [List.append_nil] at hread
  have e : Memory.transform .little (2 ^ 33) (some (0, (⟨0, [.str []], [.null 1]⟩ : Row).bytes))
      ⟨⟨[1], [1]⟩, ⟨1000000000, [1], .backward, .empty, false, 1⟩, .new⟩ =
      (.ok none, ⟨⟨[1], [1]⟩, ⟨1000000000, [1], .backward, .empty, false, 1⟩,
        ⟨OMap.empty.set [⟨[]⟩] ⟨false, 0, [⟨[]⟩], [none]⟩, OMap.empty.set [⟨[]⟩] [⟨false, 0, [⟨[]⟩], [none]⟩]⟩⟩) := by
    unfold Memory.transform
    have hr : Serializer.readBuffer ⟨[1], [1]⟩ .little (2 ^ 33) (some (0, (⟨0, [.str []], [.null 1]⟩ : Row).bytes)) =
      .ok ⟨0, [⟨[]⟩], [none]⟩ := hread
    simp only [hr]
    rfl
  rw [Memory.transformAll, e] at h1
  have h2 := C66_written false ⟨0, [.str []], [.null 1]⟩ hf he .little (2 ^ 33)
  have h3 : (.ok none : Except Err (Option (List (List UInt8)))) =
    Serializer.serialize ⟨[1], [1]⟩ .little (2 ^ 33) [⟨false, 0, [⟨[]⟩], [none]⟩] := h1
  have h4 : Serializer.serialize ⟨[1], [1]⟩ .little (2 ^ 33) [⟨false, 0, [⟨[]⟩], [none]⟩] = _ := h2
  rw [h4] at h3
  simp at h3

end

/-! ### Saving -/

/-- The types a serializer can be made of: at least one key and one data column, all of valid types. -/
def GoodTypes (ids : List UInt32) : Prop := ids ≠ [] ∧ ids.length < 2 ^ 32 ∧ ∀ id ∈ ids, validTypeId id = true

theorem validateTypes_good {ids : List UInt32} (h : GoodTypes ids) : validateTypes ids = .ok ids := by
  unfold validateTypes
  rw [if_neg h.1, if_neg]
  simp only [List.any_eq_true, not_exists, not_and]
  intro x hx
  simp [h.2.2 x hx]

theorem fits_types {ids : List UInt32} (h : GoodTypes ids) : Fits.fits ids := ⟨h.2.1, fun _ _ => trivial⟩

/-- **C66, saving.**  A transformer that is saved through the interface (column types, then the transformer) and loaded, on
any host, at any address, with whatever bytes come before and after, has the same column types and is the same transformer;
exactly the saved bytes are consumed, and loading from a part of them is refused with an exception. -/
theorem C66_save (s : Serializer) (hk : GoodTypes s.keys) (hd : GoodTypes s.datas) (p : (timeSeriesImputer perMicro).Params)
    (t : SavedImputer) (hp : (timeSeriesImputer perMicro).make p = .ok t) (hf : Fits.fits p) :
    ∃ bs, Writes (saveMemory s t) bs ∧ Reads loadMemory bs (s, t) ∧ Truncs loadMemory bs := by
  obtain ⟨b3, w3, r3, t3⟩ := library_roundTrips (timeSeriesImputer perMicro) (.timeSeriesImputer _ (by decide)) p t hp hf
  have hk' := fits_types hk
  have hd' := fits_types hd
  have hm : Serializer.make s.keys s.datas = .ok s := by
    unfold Serializer.make
    rw [validateTypes_good hk, validateTypes_good hd]
  have hmr : Reads (liftExcept (Serializer.make s.keys s.datas)) [] s := by
    rw [hm]
    exact Reads.pure _
  have hs : Writes s.save (Codec.bytes s.keys ++ Codec.bytes s.datas) := Writes.bind (Codec.writes _ hk') (Codec.writes _ hd')
  have hl : Reads Serializer.load (Codec.bytes s.keys ++ (Codec.bytes s.datas ++ [])) s :=
    Reads.bind (Codec.reads _ hk') (Reads.bind (Codec.reads _ hd') hmr)
  have ht : Truncs Serializer.load (Codec.bytes s.keys ++ (Codec.bytes s.datas ++ [])) :=
    Truncs.bind (Codec.reads _ hk') (Codec.truncs _ hk')
      (Truncs.bind (Codec.reads _ hd') (Codec.truncs _ hd') (Truncs.nil _))
  rw [List.append_nil] at hl ht
  exact ⟨_, Writes.bind hs w3, Reads.bind hl (Reads.map _ r3), Truncs.bind hl ht (Truncs.map r3 t3)⟩

/-- Hypotheses met. -/
example : ∃ bs, Writes (saveMemory ⟨[1, 17], [12, 4]⟩ (⟨1000000⟩, [12, 4], 1, .empty, true)) bs ∧
    Reads loadMemory bs (⟨[1, 17], [12, 4]⟩, (⟨1000000⟩, [12, 4], 1, .empty, true)) ∧ Truncs loadMemory bs :=
  C66_save ⟨[1, 17], [12, 4]⟩ ⟨by decide, by decide, by decide⟩ ⟨by decide, by decide, by decide⟩
    (⟨1000000⟩, [12, 4], 1, .empty, true) _ (by rfl)
    ⟨⟨1000, by decide⟩, ⟨by decide, fun _ _ => trivial⟩, trivial, ⟨by decide, by simp [OMap.empty]⟩, trivial⟩

/-! ### Releasing results -/

theorem destroyLoop_append (xs : List (Nat × Nat)) (h : ∀ x ∈ xs, x.2 ≠ 0) (rest : List (Option Nat × Nat)) :
    destroyLoop (xs.map (fun x => (some x.1, x.2)) ++ rest) = ((destroyLoop rest).1, xs.map (·.1) ++ (destroyLoop rest).2) := by
  induction xs with
  | nil => rfl
  | cons x xs ih =>
    simp only [List.map_cons, List.cons_append, destroyLoop]
    rw [if_neg (h x (by simp)), ih (fun y hy => h y (by simp [hy]))]

/-- **C66, releasing.**  Releasing the result of a call, none or any number of rows (a row has at least one byte), releases
every row buffer once, and the array of them once. -/
theorem C66_destroy (xs : List (Nat × Nat)) (h : ∀ x ∈ xs, x.2 ≠ 0) :
    destroyData (if xs = [] then none else some (xs.map fun x => (some x.1, x.2))) xs.length =
      (.ok (), ⟨xs.map (·.1), decide (xs ≠ [])⟩) := by
  unfold destroyData
  by_cases hx : xs = []
  · subst hx; rfl
  · have hn : xs.length ≠ 0 := by simpa using hx
    have := destroyLoop_append xs h []
    rw [List.append_nil] at this
    simp only [if_neg hx, List.length_map, lt_irrefl, if_false, if_neg hn]
    rw [List.take_of_length_le (by simp), this]
    simp [destroyLoop, hx]

/-- **C66, releasing what is no result.**  A null array with a length, an array with length 0, and an array with a null or
empty element are refused with `invalid_argument`; in the last case the buffers before that element have been released, the
others and the array have not. -/
theorem C66_destroy_refused (xs : List (Nat × Nat)) (h : ∀ x ∈ xs, x.2 ≠ 0) (bad : Option Nat × Nat)
    (hbad : bad.1 = none ∨ bad.2 = 0) (rest : List (Option Nat × Nat)) (n : Nat) :
    destroyData (some (xs.map (fun x => (some x.1, x.2)) ++ bad :: rest)) (xs.length + 1 + rest.length) =
      (.error .invalidArgument, ⟨xs.map (·.1), false⟩) ∧
    destroyData none (n + 1) = (.error .invalidArgument, ⟨[], false⟩) ∧
    destroyData (some (xs.map fun x => (some x.1, x.2))) 0 = (.error .invalidArgument, ⟨[], false⟩) := by
  refine ⟨?_, rfl, rfl⟩
  unfold destroyData
  have hb : destroyLoop (bad :: rest) = (.error .invalidArgument, []) := by
    obtain ⟨b, m⟩ := bad
    rcases b with _ | b
    · rfl
    · rcases hbad with hb | hb
      · simp at hb
      · simp only at hb
        subst hb
        rfl
  simp only
  rw [if_neg (by omega), if_neg (by simp; omega), List.take_of_length_le (by simp; omega), destroyLoop_append xs h, hb]
  simp

/-! ### The hypotheses are met -/

section
variable [TextTraits F32] [TextTraits F64]

/-- A row: the key columns text, 8-bit number, flag, time; the data columns 64-bit number, null, text. -/
private def exampleRow : Row :=
  ⟨1000000000, [.str [97, 98], .i8 (-128), .bool true, .time 86399], [.value (.u64 12), .null 11, .value (.str [])]⟩

omit [TextTraits F32] [TextTraits F64] in
private theorem exampleRow_fits : exampleRow.Fits := by
  refine ⟨by decide, ?_, ?_⟩
  · simp only [exampleRow, List.mem_cons, List.not_mem_nil, or_false]
    rintro c (rfl | rfl | rfl | rfl)
    · simp [Cell.Fits]
    · trivial
    · trivial
    · exact ⟨by decide, by decide⟩
  · simp only [exampleRow, List.mem_cons, List.not_mem_nil, or_false]
    rintro c (rfl | rfl | rfl)
    · exact ⟨trivial, by simp, by simp⟩
    · show Supported 11
      decide
    · exact ⟨by simp [Cell.Fits], by simp, by simp⟩

private theorem exampleRow_exact : exampleRow.Exact := by
  refine ⟨?_, ?_⟩
  · simp only [exampleRow, List.mem_cons, List.not_mem_nil, or_false]
    rintro c (rfl | rfl | rfl | rfl)
    · trivial
    · trivial
    · trivial
    · show -9223286400 ≤ (86399 : Int64).toInt
      decide
  · simp only [exampleRow, List.mem_cons, List.not_mem_nil, or_false]
    rintro c (rfl | rfl | rfl) <;> trivial

/-- Hypotheses of `C66_read`, `C66_truncated` and `C66_written` met: 42 bytes. -/
example : exampleRow.Fits ∧ exampleRow.Exact ∧ exampleRow.bytes.length = 42 ∧ Roomy (2 ^ 40) 4096 exampleRow.bytes.length :=
  ⟨exampleRow_fits, exampleRow_exact, by rfl, by unfold Roomy; decide⟩

/-- Hypotheses of `C66_history_partial` met, for a history of two rows. -/
example : Matches exampleRow.types ⟨1000000000, exampleRow.types.datas, .forward, .empty, false, 100⟩ ∧
    ∀ x ∈ [Call.mk exampleRow 4096 [], ⟨exampleRow, 8192, [1, 2]⟩], x.row.types = exampleRow.types ∧ x.row.Fits ∧ x.row.Exact ∧
      Roomy (2 ^ 40) x.base (x.row.bytes ++ x.junk).length := by
  refine ⟨⟨rfl, dvd_refl _, fun h => by cases h⟩, ?_⟩
  simp only [List.mem_cons, List.not_mem_nil, or_false]
  rintro x (rfl | rfl)
  · exact ⟨rfl, exampleRow_fits, exampleRow_exact, by unfold Roomy; decide⟩
  · exact ⟨rfl, exampleRow_fits, exampleRow_exact, by unfold Roomy; decide⟩

/-- Hypotheses of `C66_unsupported` met: `Float16` is a valid type. -/
example : GoodTypes [10] ∧ ¬ Supported 10 := ⟨⟨by decide, by decide, by decide⟩, by decide⟩

/-- Hypotheses of `C66_nan` met: a signalling NaN, and a negative NaN. -/
example : isNaN32 ⟨0x7F800001⟩ = true ∧ isNaN64 ⟨0xFFF8000000000000⟩ = true := ⟨by decide, by decide⟩

end

/-- Hypotheses of `C66_destroy` met. -/
example : destroyData (some [(some 7, 20), (some 8, 20)]) 2 = (.ok (), ⟨[7, 8], true⟩) := rfl

/-- Hypotheses of `C66_destroy_refused` met. -/
example : destroyData (some [(some 7, 20), (none, 20), (some 8, 20)]) 3 = (.error .invalidArgument, ⟨[7], false⟩) := rfl

end Feat.RowCodec
