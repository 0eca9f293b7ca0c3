import Verif.Model.ContainerText
import Verif.Model.FloatText
/-
What the texts of containers are expected to tell.
-/
namespace Feat.ContainerText

/-- Texts with commas between them. -/
def commas (texts : List (List UInt8)) : List UInt8 := (texts.intersperse [44]).flatten

/-- A text between an opening and a closing character. -/
def within (opening closing : Char) (s : List UInt8) : List UInt8 :=
  UInt8.ofNat opening.toNat :: s ++ [UInt8.ofNat closing.toNat]

/-- The text identifies the value. -/
def Identifies (T : Type) [TextTraits T] : Prop :=
  ∀ x y : T, (TextTraits.toText x : List UInt8) = TextTraits.toText y → x = y

/- The types whose texts can be told apart: integers, booleans, and containers, tuples and optional values (but no
optional values of optional values) of such types. No strings, no floating point numbers, no matrices. The first
argument tells whether the type is optional. -/
mutual
inductive Plain : Bool → (T : Type) → [TextTraits T] → Prop where
  | bool : Plain false Bool
  | int8 : Plain false Int8
  | int16 : Plain false Int16
  | int32 : Plain false Int32
  | int64 : Plain false Int64
  | uint8 : Plain false UInt8
  | uint16 : Plain false UInt16
  | uint32 : Plain false UInt32
  | uint64 : Plain false UInt64
  | optional {T : Type} [TextTraits T] : Plain false T → Plain true (Option T)
  | vector {o : Bool} {T : Type} [TextTraits T] : Plain o T → Plain false (List T)
  | array {o : Bool} {T : Type} {n : Nat} [TextTraits T] : Plain o T → Plain false (Arr T n)
  | map {o p : Bool} {K V : Type} [LinearOrder K] [TextTraits K] [TextTraits V] : Plain o K → Plain p V →
      Plain false (OMap K V)
  | unorderedMap {o p : Bool} {K V : Type} [TextTraits K] [TextTraits V] : Plain o K → Plain p V →
      Plain false (UMap K V)
  | unorderedSet {o : Bool} {K : Type} [TextTraits K] : Plain o K → Plain false (USet K)
  | tuple {A : Type} [Fields A] : PlainFields A → Plain false (Tuple A)
inductive PlainFields : (A : Type) → [Fields A] → Prop where
  | last {o : Bool} {T : Type} [TextTraits T] : Plain o T → PlainFields (Last T)
  | before {o : Bool} {T A : Type} [TextTraits T] [Fields A] : Plain o T → PlainFields A → PlainFields (T × A)
end

end Feat.ContainerText
