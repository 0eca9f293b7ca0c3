import Verif.Model.Basic
/-
Model of /repo/src/Archive.h.

The buffer of a reading archive is a byte list placed at an address; the read cursor `_pBuffer` is an
address, and pointer arithmetic is the flat machine arithmetic the code compiles to: it wraps at the
size of the address space (`space`, 2^64 or 2^32).  This makes the unguarded `_pBuffer + cDelta` of
`update_buffer_ptr` visible.
-/
namespace Feat

/-- `Archive::ModeValue` (Archive.h 41–44). -/
inductive Mode where
  | serializing | deserializing
  deriving DecidableEq, Repr

/-- Byte order of the machine running the code (`ISLITTLEENDIAN`, Archive.h 11–15; assumed to be set to match the host). -/
inductive Endian where
  | little | big
  deriving DecidableEq, Repr

/-- `Archive` (Archive.h 28–107).  When `mode` is `serializing`, `buf` is `_buffer` and `base`, `cur` are
null.  `space` is the number of addresses (and of `size_t` values) of the platform.  When it is `deserializing`, `buf` is the content of the bytes in
`[_pBuffer at construction, _pEndBuffer)`, `base` their address and `cur` is `_pBuffer`. -/
structure Archive where
  mode : Mode
  host : Endian
  space : Nat
  buf : List UInt8
  base : Nat
  cur : Nat
  deriving DecidableEq, Repr

namespace Archive

/-- `_pEndBuffer`. -/
abbrev endp (a : Archive) : Nat := a.base + a.buf.length

/-- `Archive::Archive(size_t)` (Archive.h 118–132). Reservation has no observable effect. -/
def mkWriter (host : Endian) (space : Nat) : Archive :=
  { mode := .serializing, host, space, buf := [], base := 0, cur := 0 }

/-- `Archive::Archive(ByteArray)` (Archive.h 134–139). `base` is where the allocator put the bytes. -/
def mkReader (host : Endian) (space base : Nat) (bytes : List UInt8) : Archive :=
  { mode := .deserializing, host, space, buf := bytes, base, cur := base }

/-- `Archive::Archive(unsigned char const *, size_t)` (Archive.h 141–148): null pointer iff zero length. -/
def mkReaderPtr (host : Endian) (space : Nat) (ptr : Option (Nat × List UInt8)) (cb : Nat) : Except Err Archive :=
  match ptr with
  | none => if cb ≠ 0 then .error .invalidArgument else .ok (mkReader host space 0 [])
  | some (p, mem) => if cb = 0 then .error .invalidArgument else .ok (mkReader host space p (mem.take cb))

/-- `Archive::serialize(pBuffer, cBuffer)` (Archive.h 150–160). `none` is a null pointer. -/
def serializeRaw (p : Option (List UInt8)) (cb : Nat) : M Archive Unit := fun a =>
  if a.mode ≠ .serializing then (.error .runtimeError, a)
  else match p with
    | none => if cb ≠ 0 then (.error .invalidArgument, a) else (.ok (), a)
    | some mem =>
      if cb = 0 then (.error .invalidArgument, a)
      else (.ok (), { a with buf := a.buf ++ mem.take cb })

/-- `Archive::commit` (Archive.h 167–172): moves the buffer out, leaving it empty. -/
def commit : M Archive (List UInt8) := fun a =>
  if a.mode ≠ .serializing then (.error .runtimeError, a)
  else (.ok a.buf, { a with buf := [] })

/-- `Archive::get_buffer_ptr` (Archive.h 179–187). -/
def getBufferPtr : M Archive Nat := fun a =>
  if a.mode ≠ .deserializing then (.error .runtimeError, a)
  else if a.cur = a.endp then (.error .runtimeError, a)
  else (.ok a.cur, a)

/-- `Archive::update_buffer_ptr` (Archive.h 189–200). The sum wraps. -/
def updateBufferPtr (delta : Nat) : M Archive Unit := fun a =>
  if a.mode ≠ .deserializing then (.error .runtimeError, a)
  else
    let p := (a.cur + delta) % a.space
    if p > a.endp then (.error .invalidArgument, a)
    else (.ok (), { a with cur := p })

/-- `Archive::AtEnd` (Archive.h 202–207). -/
def atEnd : M Archive Bool := fun a =>
  if a.mode ≠ .deserializing then (.error .runtimeError, a)
  else (.ok (a.cur == a.endp), a)

/-- Memory at `[p, p+n)`: defined only inside the archive's buffer. -/
def memAt (a : Archive) (p n : Nat) : Option (List UInt8) :=
  if a.base ≤ p ∧ p + n ≤ a.endp then some ((a.buf.drop (p - a.base)).take n) else none

/-- `Archive::clone` (Archive.h 209–217): a new archive over a copy of the unread bytes (at `base'`). -/
def clone (base' : Nat) : M Archive Archive := fun a =>
  if a.mode ≠ .deserializing then (.error .runtimeError, a)
  else if a.cur = a.endp then (.error .runtimeError, a)
  else match a.memAt a.cur (a.endp - a.cur) with
    | none => (.error .ub, a)
    | some bs => (.ok (mkReader a.host a.space base' bs), a)

/-- The raw part of `Archive::deserialize_impl(true_type)` (Archive.h 248–262): the object
representation of a `size`-byte value. `_pEndBuffer - _pBuffer` is converted to `size_t`. -/
def deserializeRaw (size : Nat) : M Archive (List UInt8) := fun a =>
  if a.mode ≠ .deserializing then (.error .runtimeError, a)
  else if (a.endp + a.space - a.cur) % a.space < size then (.error .runtimeError, a)
  else match a.memAt a.cur size with
    | none => (.error .ub, a)
    | some bs => (.ok bs, { a with cur := a.cur + size })

/-- Bytes `[p, p+n)` copied by `std::copy(pBuffer, pBuffer + size, ...)` (used by Traits.h 853). -/
def readMem (p n : Nat) : M Archive (List UInt8) := fun a =>
  match a.memAt p n with
  | none => (.error .ub, a)
  | some bs => (.ok bs, a)

end Archive

/-! ### Scalars -/

/-- Little-endian base-256 digits of `n`, `k` of them. -/
def leBytes : Nat → Nat → List UInt8
  | 0, _ => []
  | k + 1, n => UInt8.ofNat (n % 256) :: leBytes k (n / 256)

/-- The number whose little-endian base-256 digits are `bs`. -/
def leNat : List UInt8 → Nat
  | [] => 0
  | b :: bs => b.toNat + 256 * leNat bs

/-- A POD type: its size, its value representation as a number below `256 ^ size`, and its inverse
(`none`: a representation that denotes no value; only `bool` has those). -/
class Scalar (T : Type) where
  size : Nat
  enc : T → Nat
  dec : Nat → Option T
  size_pos : 0 < size
  enc_lt : ∀ v, enc v < 256 ^ size
  dec_enc : ∀ v, dec (enc v) = some v

namespace Scalar
variable {T : Type} [Scalar T]

/-- Object representation of a value on a host: what `reinterpret_cast<unsigned char const *>(&value)`
shows (Archive.h 239). -/
def objBytes (h : Endian) (v : T) : List UInt8 :=
  match h with
  | .little => leBytes (size T) (enc v)
  | .big => (leBytes (size T) (enc v)).reverse

/-- `*reinterpret_cast<T const *>(p)` (Archive.h 258). -/
def ofObjBytes (h : Endian) (bs : List UInt8) : Option T :=
  match h with
  | .little => dec (leNat bs)
  | .big => dec (leNat bs.reverse)

/-- `swap_endian` on the object representation (Archive.h 224–233):
`dest[k] = source[sizeof(T) - k - 1]`. -/
def swapBytes (bs : List UInt8) : List UInt8 :=
  (List.range bs.length).map fun k => bs.getD (bs.length - k - 1) 0

/-- `Archive::serialize<T>` (Archive.h 162–165, 235–246). -/
def write (v : T) : M Archive Unit := fun a =>
  match a.host with
  | .little => Archive.serializeRaw (some (objBytes .little v)) (size T) a
  | .big => Archive.serializeRaw (some (swapBytes (objBytes .big v))) (size T) a

/-- `Archive::deserialize<T>` (Archive.h 174–177, 248–267). -/
def read (T : Type) [Scalar T] : M Archive T := do
  let bs ← Archive.deserializeRaw (size T)
  let a ← M.get
  match (match a.host with
    | .little => ofObjBytes .little bs
    | .big => ofObjBytes .big (swapBytes bs)) with
  | some v => pure v
  | none => M.throw .ub

end Scalar

/-- `float`, as its bit pattern. -/
structure F32 where
  bits : UInt32
  deriving DecidableEq, Repr

/-- `double`, as its bit pattern. -/
structure F64 where
  bits : UInt64
  deriving DecidableEq, Repr

instance : Scalar UInt8 where
  size := 1
  enc v := v.toNat
  dec n := some (UInt8.ofNat n)
  size_pos := by decide
  enc_lt v := v.toNat_lt
  dec_enc v := by simp

instance : Scalar UInt16 where
  size := 2
  enc v := v.toNat
  dec n := some (UInt16.ofNat n)
  size_pos := by decide
  enc_lt v := v.toNat_lt
  dec_enc v := by simp

instance : Scalar UInt32 where
  size := 4
  enc v := v.toNat
  dec n := some (UInt32.ofNat n)
  size_pos := by decide
  enc_lt v := v.toNat_lt
  dec_enc v := by simp

instance : Scalar UInt64 where
  size := 8
  enc v := v.toNat
  dec n := some (UInt64.ofNat n)
  size_pos := by decide
  enc_lt v := v.toNat_lt
  dec_enc v := by simp

/-- Two's complement. -/
instance : Scalar Int8 where
  size := 1
  enc v := v.toUInt8.toNat
  dec n := some (UInt8.ofNat n).toInt8
  size_pos := by decide
  enc_lt v := v.toUInt8.toNat_lt
  dec_enc v := by simp

/-- Two's complement. -/
instance : Scalar Int16 where
  size := 2
  enc v := v.toUInt16.toNat
  dec n := some (UInt16.ofNat n).toInt16
  size_pos := by decide
  enc_lt v := v.toUInt16.toNat_lt
  dec_enc v := by simp

/-- Two's complement. -/
instance : Scalar Int32 where
  size := 4
  enc v := v.toUInt32.toNat
  dec n := some (UInt32.ofNat n).toInt32
  size_pos := by decide
  enc_lt v := v.toUInt32.toNat_lt
  dec_enc v := by simp

/-- Two's complement. -/
instance : Scalar Int64 where
  size := 8
  enc v := v.toUInt64.toNat
  dec n := some (UInt64.ofNat n).toInt64
  size_pos := by decide
  enc_lt v := v.toUInt64.toNat_lt
  dec_enc v := by simp

instance : Scalar F32 where
  size := 4
  enc v := v.bits.toNat
  dec n := some ⟨UInt32.ofNat n⟩
  size_pos := by decide
  enc_lt v := v.bits.toNat_lt
  dec_enc v := by simp

instance : Scalar F64 where
  size := 8
  enc v := v.bits.toNat
  dec n := some ⟨UInt64.ofNat n⟩
  size_pos := by decide
  enc_lt v := v.bits.toNat_lt
  dec_enc v := by simp

/-- `bool`: one byte; any representation other than 0 and 1 is not a value. -/
instance : Scalar Bool where
  size := 1
  enc v := v.toNat
  dec n := if n = 0 then some false else if n = 1 then some true else none
  size_pos := by decide
  enc_lt v := by cases v <;> decide
  dec_enc v := by cases v <;> decide

end Feat
