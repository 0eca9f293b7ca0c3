import Verif.Model.Archive
/-
C++ fixed-width integer arithmetic.
-/
namespace Feat

/-- A C++ integer type `T`: its value, the modular conversion to it, and whether arithmetic on it is
done in signed arithmetic of its own width (`int32_t`, `int64_t`: overflow is undefined) or in a wider or
unsigned type with modular conversion back (`int8_t`, `int16_t` promote to `int`; unsigned types wrap). -/
class CInt (T : Type) where
  toInt : T → Int
  ofInt : Int → T
  lo : Int
  hi : Int
  strict : Bool
  ofInt_toInt : ∀ x, ofInt (toInt x) = x
  range : ∀ x, lo ≤ toInt x ∧ toInt x ≤ hi
  toInt_ofInt : ∀ i, lo ≤ i → i ≤ hi → toInt (ofInt i) = i
  ofInt_congr : ∀ i j, ofInt (toInt (ofInt i) + j) = ofInt (i + j)

/-- The result `r` of an arithmetic operation on `T`, converted back to `T`. -/
def CInt.arith {T : Type} [CInt T] (r : Int) : Except Err T :=
  if CInt.strict T ∧ ¬ (CInt.lo T ≤ r ∧ r ≤ CInt.hi T) then .error .ub else .ok (CInt.ofInt r)

instance : CInt Int8 where
  toInt := Int8.toInt
  ofInt := Int8.ofInt
  lo := -128
  hi := 127
  strict := false
  ofInt_toInt x := by simp
  range x := ⟨x.le_toInt, by have := x.toInt_lt; omega⟩
  toInt_ofInt i h1 h2 := Int8.toInt_ofInt_of_le h1 (by omega)
  ofInt_congr i j := by rw [Int8.ofInt_add, Int8.ofInt_add, Int8.ofInt_toInt]

instance : CInt Int16 where
  toInt := Int16.toInt
  ofInt := Int16.ofInt
  lo := -32768
  hi := 32767
  strict := false
  ofInt_toInt x := by simp
  range x := ⟨x.le_toInt, by have := x.toInt_lt; omega⟩
  toInt_ofInt i h1 h2 := Int16.toInt_ofInt_of_le h1 (by omega)
  ofInt_congr i j := by rw [Int16.ofInt_add, Int16.ofInt_add, Int16.ofInt_toInt]

instance : CInt Int32 where
  toInt := Int32.toInt
  ofInt := Int32.ofInt
  lo := -2147483648
  hi := 2147483647
  strict := true
  ofInt_toInt x := by simp
  range x := ⟨x.le_toInt, by have := x.toInt_lt; omega⟩
  toInt_ofInt i h1 h2 := Int32.toInt_ofInt_of_le h1 (by omega)
  ofInt_congr i j := by rw [Int32.ofInt_add, Int32.ofInt_add, Int32.ofInt_toInt]

instance : CInt Int64 where
  toInt := Int64.toInt
  ofInt := Int64.ofInt
  lo := -9223372036854775808
  hi := 9223372036854775807
  strict := true
  ofInt_toInt x := by simp
  range x := ⟨x.le_toInt, by have := x.toInt_lt; omega⟩
  toInt_ofInt i h1 h2 := Int64.toInt_ofInt_of_le h1 (by omega)
  ofInt_congr i j := by rw [Int64.ofInt_add, Int64.ofInt_add, Int64.ofInt_toInt]

instance : CInt UInt8 where
  toInt x := x.toNat
  ofInt i := UInt8.ofNat (i % 256).toNat
  lo := 0
  hi := 255
  strict := false
  ofInt_toInt x := by
    apply UInt8.toNat_inj.1
    have := x.toNat_lt
    rw [UInt8.toNat_ofNat']; omega
  range x := by have := x.toNat_lt; omega
  toInt_ofInt i h1 h2 := by rw [UInt8.toNat_ofNat']; omega
  ofInt_congr i j := by
    apply UInt8.toNat_inj.1
    simp only [UInt8.toNat_ofNat']; omega

instance : CInt UInt16 where
  toInt x := x.toNat
  ofInt i := UInt16.ofNat (i % 65536).toNat
  lo := 0
  hi := 65535
  strict := false
  ofInt_toInt x := by
    apply UInt16.toNat_inj.1
    have := x.toNat_lt
    rw [UInt16.toNat_ofNat']; omega
  range x := by have := x.toNat_lt; omega
  toInt_ofInt i h1 h2 := by rw [UInt16.toNat_ofNat']; omega
  ofInt_congr i j := by
    apply UInt16.toNat_inj.1
    simp only [UInt16.toNat_ofNat']; omega

instance : CInt UInt32 where
  toInt x := x.toNat
  ofInt i := UInt32.ofNat (i % 4294967296).toNat
  lo := 0
  hi := 4294967295
  strict := false
  ofInt_toInt x := by
    apply UInt32.toNat_inj.1
    have := x.toNat_lt
    rw [UInt32.toNat_ofNat']; omega
  range x := by have := x.toNat_lt; omega
  toInt_ofInt i h1 h2 := by rw [UInt32.toNat_ofNat']; omega
  ofInt_congr i j := by
    apply UInt32.toNat_inj.1
    simp only [UInt32.toNat_ofNat']; omega

instance : CInt UInt64 where
  toInt x := x.toNat
  ofInt i := UInt64.ofNat (i % 18446744073709551616).toNat
  lo := 0
  hi := 18446744073709551615
  strict := false
  ofInt_toInt x := by
    apply UInt64.toNat_inj.1
    have := x.toNat_lt
    rw [UInt64.toNat_ofNat']; omega
  range x := by have := x.toNat_lt; omega
  toInt_ofInt i h1 h2 := by rw [UInt64.toNat_ofNat']; omega
  ofInt_congr i j := by
    apply UInt64.toNat_inj.1
    simp only [UInt64.toNat_ofNat']; omega

end Feat
