import Verif.Spec.Codec
import Mathlib.Data.List.Lex
import Mathlib.Order.Basic
import Mathlib.Data.Int.Order.Basic
/-
The closed universe of types with serialization support, in any nesting (the `Traits<...>`
specialisations of Traits.h 344–1215 and 1502–1561).
-/
namespace Feat

/-- `std::string` compares as its sequence of unsigned bytes, lexicographically. -/
instance Str.linearOrder : LinearOrder Str :=
  LinearOrder.lift' (fun s : Str => s.chars.map UInt8.toNat) (by
    intro a b h
    obtain ⟨a⟩ := a; obtain ⟨b⟩ := b
    simp only at h
    have hinj : Function.Injective UInt8.toNat := fun _ _ h => UInt8.toNat_inj.1 h
    rw [List.map_injective_iff.2 hinj h])

/-- Key types of maps and sets. -/
inductive KeyTy where
  | i8 | i16 | i32 | i64 | u8 | u16 | u32 | u64 | str
  deriving DecidableEq, Repr

/-- The values of a key type. -/
@[reducible] def KeyTy.denote : KeyTy → Type
  | .i8 => Int8 | .i16 => Int16 | .i32 => Int32 | .i64 => Int64
  | .u8 => UInt8 | .u16 => UInt16 | .u32 => UInt32 | .u64 => UInt64
  | .str => Str

/-- `std::less` on keys. -/
@[reducible] def KeyTy.order : (k : KeyTy) → LinearOrder k.denote
  | .i8 => LinearOrder.lift' Int8.toInt (fun _ _ h => Int8.toInt_inj.1 h)
  | .i16 => LinearOrder.lift' Int16.toInt (fun _ _ h => Int16.toInt_inj.1 h)
  | .i32 => LinearOrder.lift' Int32.toInt (fun _ _ h => Int32.toInt_inj.1 h)
  | .i64 => LinearOrder.lift' Int64.toInt (fun _ _ h => Int64.toInt_inj.1 h)
  | .u8 => LinearOrder.lift' UInt8.toNat (fun _ _ h => UInt8.toNat_inj.1 h)
  | .u16 => LinearOrder.lift' UInt16.toNat (fun _ _ h => UInt16.toNat_inj.1 h)
  | .u32 => LinearOrder.lift' UInt32.toNat (fun _ _ h => UInt32.toNat_inj.1 h)
  | .u64 => LinearOrder.lift' UInt64.toNat (fun _ _ h => UInt64.toNat_inj.1 h)
  | .str => Str.linearOrder

instance (k : KeyTy) : LinearOrder k.denote := k.order

/-- Serializable types. `pair` nests to longer tuples. -/
inductive Ty where
  | bool | key (k : KeyTy) | f32 | f64
  | opt (t : Ty) | vec (t : Ty) | arr (n : Nat) (t : Ty) | pair (a b : Ty)
  | omap (k : KeyTy) (v : Ty) | umap (k : KeyTy) (v : Ty) | uset (k : KeyTy)
  | mat (colMajor : Bool) (t : Ty)
  deriving DecidableEq, Repr

/-- The values of a type. -/
@[reducible] def Ty.denote : Ty → Type
  | .bool => Bool | .key k => k.denote | .f32 => F32 | .f64 => F64
  | .opt t => Option t.denote | .vec t => List t.denote | .arr n t => Arr t.denote n
  | .pair a b => a.denote × b.denote
  | .omap k v => OMap k.denote v.denote | .umap k v => UMap k.denote v.denote
  | .uset k => USet k.denote
  | .mat c t => Mat t.denote c

/-- The `Traits` specialisation of a key type. -/
instance KeyTy.traits : (k : KeyTy) → Traits k.denote
  | .i8 => inferInstanceAs (Traits Int8) | .i16 => inferInstanceAs (Traits Int16)
  | .i32 => inferInstanceAs (Traits Int32) | .i64 => inferInstanceAs (Traits Int64)
  | .u8 => inferInstanceAs (Traits UInt8) | .u16 => inferInstanceAs (Traits UInt16)
  | .u32 => inferInstanceAs (Traits UInt32) | .u64 => inferInstanceAs (Traits UInt64)
  | .str => inferInstanceAs (Traits Str)

/-- The `Traits` specialisation of a type. -/
instance Ty.traits : (t : Ty) → Traits t.denote
  | .bool => inferInstanceAs (Traits Bool)
  | .key k => k.traits
  | .f32 => inferInstanceAs (Traits F32)
  | .f64 => inferInstanceAs (Traits F64)
  | .opt t => have := t.traits; inferInstanceAs (Traits (Option t.denote))
  | .vec t => have := t.traits; inferInstanceAs (Traits (List t.denote))
  | .arr n t => have := t.traits; inferInstanceAs (Traits (Arr t.denote n))
  | .pair a b => have := a.traits; have := b.traits; inferInstanceAs (Traits (a.denote × b.denote))
  | .omap k v => have := v.traits; inferInstanceAs (Traits (OMap k.denote v.denote))
  | .umap k v => have := v.traits; inferInstanceAs (Traits (UMap k.denote v.denote))
  | .uset k => inferInstanceAs (Traits (USet k.denote))
  | .mat c t => have := t.traits; inferInstanceAs (Traits (Mat t.denote c))

/-- Size condition of a key value. -/
instance KeyTy.fits : (k : KeyTy) → Fits k.denote
  | .i8 => inferInstanceAs (Fits Int8) | .i16 => inferInstanceAs (Fits Int16)
  | .i32 => inferInstanceAs (Fits Int32) | .i64 => inferInstanceAs (Fits Int64)
  | .u8 => inferInstanceAs (Fits UInt8) | .u16 => inferInstanceAs (Fits UInt16)
  | .u32 => inferInstanceAs (Fits UInt32) | .u64 => inferInstanceAs (Fits UInt64)
  | .str => inferInstanceAs (Fits Str)

/-- Size condition of a value. -/
instance Ty.fits : (t : Ty) → Fits t.denote
  | .bool => inferInstanceAs (Fits Bool)
  | .key k => k.fits
  | .f32 => inferInstanceAs (Fits F32)
  | .f64 => inferInstanceAs (Fits F64)
  | .opt t => have := t.fits; inferInstanceAs (Fits (Option t.denote))
  | .vec t => have := t.fits; inferInstanceAs (Fits (List t.denote))
  | .arr n t => have := t.fits; inferInstanceAs (Fits (Arr t.denote n))
  | .pair a b => have := a.fits; have := b.fits; inferInstanceAs (Fits (a.denote × b.denote))
  | .omap k v => have := v.fits; inferInstanceAs (Fits (OMap k.denote v.denote))
  | .umap k v => have := v.fits; inferInstanceAs (Fits (UMap k.denote v.denote))
  | .uset k => inferInstanceAs (Fits (USet k.denote))
  | .mat c t => have := t.fits; inferInstanceAs (Fits (Mat t.denote c))

end Feat
