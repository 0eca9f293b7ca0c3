import Verif.Model.Archive
import Mathlib.Order.Defs.LinearOrder
/-
Model of the serialization half of /repo/src/Traits.h.
-/
namespace Feat

/-- `Traits<T>::serialize` / `Traits<T>::deserialize` (Traits.h 268–300). -/
class Traits (T : Type) where
  serialize : T → M Archive Unit
  deserialize : M Archive T

/-- `Traits<bool>`, `Traits<intN>`, `Traits<float>`, `Traits<double>` (Traits.h 344–820): every scalar
forwards to `Archive::serialize<T>` / `Archive::deserialize<T>`. -/
instance {T : Type} [Scalar T] : Traits T where
  serialize := Scalar.write
  deserialize := Scalar.read T

/-- `std::string`: a sequence of bytes. -/
structure Str where
  chars : List UInt8
  deriving DecidableEq, Repr

/-- `Traits<std::string>` (Traits.h 834–858). -/
instance : Traits Str where
  serialize s := do
    Scalar.write (UInt32.ofNat s.chars.length)
    if s.chars ≠ [] then Archive.serializeRaw (some s.chars) s.chars.length
  deserialize := do
    let size ← Scalar.read UInt32
    if size.toNat ≠ 0 then
      let p ← Archive.getBufferPtr
      Archive.updateBufferPtr size.toNat
      let bs ← Archive.readMem p size.toNat
      pure ⟨bs⟩
    else pure ⟨[]⟩

/-- The loop writing the elements of a container in iteration order. -/
def writeAll {T : Type} [Traits T] : List T → M Archive Unit
  | [] => pure ()
  | x :: xs => do
    Traits.serialize x
    writeAll xs

/-- The loop reading `n` elements. -/
def readN {T : Type} [Traits T] : Nat → M Archive (List T)
  | 0 => pure []
  | n + 1 => do
    let x ← Traits.deserialize
    let xs ← readN n
    pure (x :: xs)

/-- `Traits<std::vector<T>>` (Traits.h 928–954). `reserve` has no observable effect (running out of
memory is not modelled). -/
instance {T : Type} [Traits T] : Traits (List T) where
  serialize l := do
    Scalar.write (UInt32.ofNat l.length)
    writeAll l
  deserialize := do
    let size ← Scalar.read UInt32
    readN size.toNat

/-- `std::array<T, N>`. -/
structure Arr (T : Type) (n : Nat) where
  items : List T
  len : items.length = n
  deriving DecidableEq

/-- `Traits<std::array<T, N>>` (Traits.h 896–914): no length prefix. -/
instance {T : Type} {n : Nat} [Traits T] : Traits (Arr T n) where
  serialize a := writeAll a.items
  deserialize := do
    let l ← readN n
    if h : l.length = n then pure ⟨l, h⟩ else M.throw .ub

/-- `Traits<std::tuple<A, B>>` (Traits.h 1218–1285); longer tuples are nested on the right: elements in
order, nothing in between. -/
instance {A B : Type} [Traits A] [Traits B] : Traits (A × B) where
  serialize p := do
    Traits.serialize p.1
    Traits.serialize p.2
  deserialize := do
    let a ← Traits.deserialize
    let b ← Traits.deserialize
    pure (a, b)

/-- `Traits<nonstd::optional<T>>` (Traits.h 1541–1561). -/
instance {T : Type} [Traits T] : Traits (Option T) where
  serialize
    | none => Scalar.write false
    | some v => do
      Scalar.write true
      Traits.serialize v
  deserialize := do
    let b ← Scalar.read Bool
    if b then
      let v ← Traits.deserialize
      pure (some v)
    else pure none

/-- `std::map<K, V>`: entries in iteration order, i.e. strictly increasing keys. -/
structure OMap (K V : Type) [LinearOrder K] where
  entries : List (K × V)
  sorted : entries.Pairwise (fun a b => a.1 < b.1)

/-- `std::map::emplace`: insert at the sorted position; an existing key is kept. -/
def emplaceSorted {K V : Type} [LinearOrder K] (k : K) (v : V) : List (K × V) → List (K × V)
  | [] => [(k, v)]
  | (k', v') :: rest =>
    if k < k' then (k, v) :: (k', v') :: rest
    else if k = k' then (k', v') :: rest
    else (k', v') :: emplaceSorted k v rest

theorem emplaceSorted_mem_fst {K V : Type} [LinearOrder K] (k : K) (v : V) (l : List (K × V)) :
    ∀ e ∈ emplaceSorted k v l, e.1 = k ∨ e ∈ l := by
  induction l with
  | nil => simp [emplaceSorted]
  | cons e rest ih =>
    obtain ⟨k', v'⟩ := e
    intro e he
    simp only [emplaceSorted] at he
    split at he
    · rcases List.mem_cons.1 he with rfl | h
      · exact .inl rfl
      · exact .inr h
    · split at he
      · exact .inr he
      · rcases List.mem_cons.1 he with rfl | h
        · exact .inr (by simp)
        · rcases ih e h with h | h
          · exact .inl h
          · exact .inr (by simp [h])

theorem emplaceSorted_sorted {K V : Type} [LinearOrder K] (k : K) (v : V) (l : List (K × V))
    (h : l.Pairwise (fun a b => a.1 < b.1)) :
    (emplaceSorted k v l).Pairwise (fun a b => a.1 < b.1) := by
  induction l with
  | nil => simp [emplaceSorted]
  | cons e rest ih =>
    obtain ⟨k', v'⟩ := e
    rw [List.pairwise_cons] at h
    simp only [emplaceSorted]
    split
    · rename_i hlt
      rw [List.pairwise_cons]
      refine ⟨?_, List.pairwise_cons.2 h⟩
      intro e he
      rcases List.mem_cons.1 he with rfl | he
      · exact hlt
      · exact lt_trans hlt (h.1 e he)
    · split
      · exact List.pairwise_cons.2 h
      · rename_i h1 h2
        rw [List.pairwise_cons]
        refine ⟨?_, ih h.2⟩
        intro e he
        rcases emplaceSorted_mem_fst k v rest e he with he | he
        · rw [he]; exact lt_of_le_of_ne (not_lt.1 h1) (Ne.symm h2)
        · exact h.1 e he

/-- `std::map::emplace`. -/
def OMap.emplace {K V : Type} [LinearOrder K] (m : OMap K V) (k : K) (v : V) : OMap K V :=
  ⟨emplaceSorted k v m.entries, emplaceSorted_sorted k v _ m.sorted⟩

/-- `std::unordered_map<K, V>`: entries with distinct keys.  The list order stands for the (unspecified)
iteration order of the container; new entries are put at the end. -/
structure UMap (K V : Type) where
  entries : List (K × V)
  nodup : (entries.map (·.1)).Nodup

/-- `std::unordered_map::emplace`: an existing key is kept. -/
def UMap.emplace {K V : Type} [DecidableEq K] (m : UMap K V) (k : K) (v : V) : UMap K V :=
  if h : k ∈ m.entries.map (·.1) then m
  else ⟨m.entries ++ [(k, v)], by
    rw [List.map_append, List.nodup_append]
    refine ⟨m.nodup, by simp, ?_⟩
    intro a ha b hb hab
    simp at hb
    subst hab; subst hb
    exact h ha⟩

/-- `std::unordered_set<K>`. -/
structure USet (K : Type) where
  elems : List K
  nodup : elems.Nodup

/-- `std::unordered_set::emplace`. -/
def USet.emplace {K : Type} [DecidableEq K] (m : USet K) (k : K) : USet K :=
  if h : k ∈ m.elems then m
  else ⟨m.elems ++ [k], by
    rw [List.nodup_append]
    refine ⟨m.nodup, by simp, ?_⟩
    intro a ha b hb hab
    simp at hb
    subst hab; subst hb
    exact h ha⟩

/-- The loop of `DeserializeMap` / `DeserializeSet` (Traits.h 995–1009, 1045–1059): `n` elements, each put
into the container as soon as it is read. -/
def readInto {T C : Type} [Traits T] (put : C → T → C) : Nat → C → M Archive C
  | 0, c => pure c
  | n + 1, c => do
    let x ← Traits.deserialize
    readInto put n (put c x)

/-- `Traits<std::map<K, V>>` (Traits.h 981–1009, 1063–1082). -/
instance {K V : Type} [LinearOrder K] [Traits K] [Traits V] : Traits (OMap K V) where
  serialize m := do
    Scalar.write (UInt32.ofNat m.entries.length)
    writeAll m.entries
  deserialize := do
    let size ← Scalar.read UInt32
    readInto (fun (c : OMap K V) (kv : K × V) => c.emplace kv.1 kv.2) size.toNat ⟨[], by simp⟩

/-- `Traits<std::unordered_map<K, V>>` (Traits.h 981–1009, 1084–1103). -/
instance {K V : Type} [DecidableEq K] [Traits K] [Traits V] : Traits (UMap K V) where
  serialize m := do
    Scalar.write (UInt32.ofNat m.entries.length)
    writeAll m.entries
  deserialize := do
    let size ← Scalar.read UInt32
    readInto (fun (c : UMap K V) (kv : K × V) => c.emplace kv.1 kv.2) size.toNat ⟨[], by simp⟩

/-- `Traits<std::unordered_set<K>>` (Traits.h 1033–1059, 1105–1124). -/
instance {K : Type} [DecidableEq K] [Traits K] : Traits (USet K) where
  serialize m := do
    Scalar.write (UInt32.ofNat m.elems.length)
    writeAll m.elems
  deserialize := do
    let size ← Scalar.read UInt32
    readInto (fun (c : USet K) (k : K) => c.emplace k) size.toNat ⟨[], by simp⟩

/-- An Eigen matrix in storage order: `outer` has one list per column (`ColMajMatrix`) or per row
(`RowMajMatrix`), each of length `inner`. -/
structure Mat (T : Type) (colMajor : Bool) where
  inner : Nat
  outer : List (List T)
  rect : ∀ l ∈ outer, l.length = inner

/-- Read `n` storage lines of `inner` elements. -/
def readLines {T : Type} [Traits T] (inner : Nat) : Nat → M Archive (List (List T))
  | 0 => pure []
  | n + 1 => do
    let l ← readN inner
    let ls ← readLines inner n
    pure (l :: ls)

/-- Write the storage lines. -/
def writeLines {T : Type} [Traits T] : List (List T) → M Archive Unit
  | [] => pure ()
  | l :: ls => do
    writeAll l
    writeLines ls

/-- `Traits<ColMajMatrix<T>>` and `Traits<RowMajMatrix<T>>` (Traits.h 1127–1213): rows and columns as signed
64-bit `Eigen::Index`, then the elements in storage order. A negative dimension violates Eigen's
precondition (`ub`). -/
instance {T : Type} {cm : Bool} [Traits T] : Traits (Mat T cm) where
  serialize m := do
    Scalar.write (Int64.ofInt (if cm then m.inner else m.outer.length))
    Scalar.write (Int64.ofInt (if cm then m.outer.length else m.inner))
    writeLines m.outer
  deserialize := do
    let rows ← Scalar.read Int64
    let cols ← Scalar.read Int64
    if rows.toInt < 0 ∨ cols.toInt < 0 then M.throw .ub
    else
      let inner := if cm then rows.toInt.toNat else cols.toInt.toNat
      let outer := if cm then cols.toInt.toNat else rows.toInt.toNat
      let ls ← readLines inner outer
      if h : ∀ l ∈ ls, l.length = inner then pure ⟨inner, ls, h⟩ else M.throw .ub

end Feat
