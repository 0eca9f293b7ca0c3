import Verif.Model.Text
/-
Model of the texts of containers in Traits.h: `ToString` and `FromString` of `std::array`, `std::vector`,
`std::map`, `std::unordered_map`, `std::unordered_set`, `std::tuple` and of matrices.
-/
namespace Feat.ContainerText

/-- The loop of `ToStringImpl` (Traits.h 872–877): `x` is `*pBuffer`, the list holds the elements behind it; the
loop ends when the pointer has reached the last element. -/
def bufferLoop {T : Type} [TextTraits T] : T → List T → List UInt8
  | x, [] => TextTraits.toText x
  | x, y :: rest => TextTraits.toText x ++ 44 :: bufferLoop y rest

/-- `ToStringImpl` (Traits.h 863–882) on the elements of the buffer. -/
def bufferText {T : Type} [TextTraits T] : List T → List UInt8
  | [] => [91] ++ [93]
  | x :: rest => [91] ++ bufferLoop x rest ++ [93]

/-- The loop of `ToMapString` (Traits.h 965–969), over the entries in the map's order of iteration. -/
def mapLoop {K V : Type} [TextTraits K] [TextTraits V] : List (K × V) → List UInt8
  | [] => []
  | e :: rest => TextTraits.toText e.1 ++ [58] ++ TextTraits.toText e.2 ++ (if rest.isEmpty then [] else [44]) ++ mapLoop rest

/-- `ToMapString` (Traits.h 959–974). -/
def mapText {K V : Type} [TextTraits K] [TextTraits V] (entries : List (K × V)) : List UInt8 :=
  [123] ++ mapLoop entries ++ [125]

/-- The loop of `ToSetString` (Traits.h 1017–1021), over the elements in the set's order of iteration. -/
def setLoop {K : Type} [TextTraits K] : List K → List UInt8
  | [] => []
  | x :: rest => TextTraits.toText x ++ (if rest.isEmpty then [] else [44]) ++ setLoop rest

/-- `ToSetString` (Traits.h 1011–1026). -/
def setText {K : Type} [TextTraits K] (elems : List K) : List UInt8 := [123] ++ setLoop elems ++ [125]

/-- `Traits<std::vector<T>>` (Traits.h 920–926). -/
instance {T : Type} [TextTraits T] : TextTraits (List T) where
  toText := bufferText
  fromText _ := .error .logicError

/-- `Traits<std::array<T, N>>` (Traits.h 888–894). -/
instance {T : Type} {n : Nat} [TextTraits T] : TextTraits (Arr T n) where
  toText a := bufferText a.items
  fromText _ := .error .logicError

/-- `Traits<ColMajMatrix<T>>` and `Traits<RowMajMatrix<T>>` (Traits.h 1129–1135, 1175–1181): the elements in the order
in which the matrix stores them. -/
instance {T : Type} {cm : Bool} [TextTraits T] : TextTraits (Mat T cm) where
  toText m := bufferText m.outer.flatten
  fromText _ := .error .logicError

/-- `Traits<std::map<K, V>>` (Traits.h 1065–1071, 976–980). -/
instance {K V : Type} [LinearOrder K] [TextTraits K] [TextTraits V] : TextTraits (OMap K V) where
  toText m := mapText m.entries
  fromText _ := .error .logicError

/-- `Traits<std::unordered_map<K, V>>` (Traits.h 1086–1092): the list of entries is in the order of iteration. -/
instance {K V : Type} [TextTraits K] [TextTraits V] : TextTraits (UMap K V) where
  toText m := mapText m.entries
  fromText _ := .error .logicError

/-- `Traits<std::unordered_set<K>>` (Traits.h 1107–1113, 1028–1032): the list of elements is in the order of
iteration. -/
instance {K : Type} [TextTraits K] : TextTraits (USet K) where
  toText s := setText s.elems
  fromText _ := .error .logicError

/-- The last element of a tuple. -/
structure Last (T : Type) where
  value : T
  deriving DecidableEq

/-- The elements of a tuple, from some position on: `Last T`, or `T × A` with `A` the elements behind. `helper` is
`ToStringHelper<N>` (Traits.h 1246–1258). -/
class Fields (A : Type) where
  helper : A → List UInt8

instance {T : Type} [TextTraits T] : Fields (Last T) where
  helper a := TextTraits.toText a.value

instance {T A : Type} [TextTraits T] [Fields A] : Fields (T × A) where
  helper a := TextTraits.toText a.1 ++ 44 :: Fields.helper a.2

/-- `std::tuple<Types...>` with at least one element (the empty tuple does not compile). -/
structure Tuple (A : Type) where
  fields : A
  deriving DecidableEq

/-- `Traits<std::tuple<Types...>>` (Traits.h 1220–1230). -/
instance {A : Type} [Fields A] : TextTraits (Tuple A) where
  toText t := [40] ++ Fields.helper t.fields ++ [41]
  fromText _ := .error .logicError

end Feat.ContainerText
