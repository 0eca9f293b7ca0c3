import Verif.Model.Structs
import Verif.Model.Transformer
/-
Model of 3rdParty/MurmurHash3.cpp (`MurmurHash3_x86_32`), Traits.h 162–175 and
HashOneHotVectorizerFeaturizer.h.

Platform: little-endian, unaligned 32-bit reads allowed (x86), as the code assumes.
-/
namespace Feat

/-- `rotl32` (MurmurHash3.cpp 46–49). -/
def rotl32 (x : UInt32) (r : UInt32) : UInt32 := (x <<< r) ||| (x >>> (32 - r))

/-- `fmix32` (MurmurHash3.cpp 80–89). -/
def fmix32 (h : UInt32) : UInt32 :=
  let h := h ^^^ (h >>> 16)
  let h := h * 0x85ebca6b
  let h := h ^^^ (h >>> 13)
  let h := h * 0xc2b2ae35
  h ^^^ (h >>> 16)

/-- Reading one byte of the key; outside it: undefined behaviour. -/
def byteAt (key : List UInt8) (i : Int) : Except Err UInt32 :=
  if i < 0 then .error .ub
  else match key[i.toNat]? with
    | some b => .ok b.toUInt32
    | none => .error .ub

/-- `getblock32` (MurmurHash3.cpp 67–70) of the little-endian word starting at byte `i`. -/
def wordAt (key : List UInt8) (i : Int) : Except Err UInt32 := do
  let a ← byteAt key i
  let b ← byteAt key (i + 1)
  let c ← byteAt key (i + 2)
  let d ← byteAt key (i + 3)
  .ok (a ||| (b <<< 8) ||| (c <<< 16) ||| (d <<< 24))

/-- One key word mixed in (MurmurHash3.cpp 126–132). -/
def mixWord (h k : UInt32) : UInt32 :=
  rotl32 (h ^^^ (rotl32 (k * 0xcc9e2d51) 15 * 0x1b873593)) 13 * 5 + 0xe6546b64

/-- The body loop (MurmurHash3.cpp 120–133): `i` runs from `-nblocks` up to 0 over words relative to the end
of the blocks; `n` iterations remain. -/
def murmurBody (key : List UInt8) (nblocks : Int) : Nat → UInt32 → Except Err UInt32
  | 0, h => .ok h
  | n + 1, h => do
    let i : Int := -(n + 1 : Int)
    let k ← wordAt key (nblocks * 4 + i * 4)
    murmurBody key nblocks n (mixWord h k)

/-- The tail `switch` (MurmurHash3.cpp 138–155). -/
def murmurTail (key : List UInt8) (nblocks len : Int) (h : UInt32) : Except Err UInt32 := do
  let t := nblocks * 4
  let r := len % 4
  if r = 0 then .ok h
  else
    let k3 ← if r = 3 then (do let b ← byteAt key (t + 2); .ok (b <<< 16)) else .ok 0
    let k2 ← if r ≥ 2 then (do let b ← byteAt key (t + 1); .ok (b <<< 8)) else .ok 0
    let k1 ← byteAt key t
    let k := k3 ^^^ k2 ^^^ k1
    .ok (h ^^^ (rotl32 (k * 0xcc9e2d51) 15 * 0x1b873593))

/-- `MurmurHash3_x86_32` (MurmurHash3.cpp 105–164) of the bytes `key` with the `int` length `len`.  A
length of −4 or less makes `nblocks` negative: the loop `for(i = -nblocks; i; i++)` then starts at a positive
`i` and runs away (`ub`). -/
def murmur3 (key : List UInt8) (len : Int) (seed : UInt32) : Except Err UInt32 :=
  if len ≤ -4 then .error .ub
  else do
    let nblocks := len.tdiv 4
    let h ← murmurBody key nblocks nblocks.toNat seed
    let h ← murmurTail key nblocks len h
    .ok (fmix32 (h ^^^ UInt32.ofInt len))

/-- `static_cast<int>(n)` for a size. -/
def sizeToInt (n : Nat) : Int :=
  let m : Int := (n % 2 ^ 32 : Nat)
  if m < 2 ^ 31 then m else m - 2 ^ 32

/-- `MurmurHashGenerator` (Traits.h 162–175): of a string its characters, of a plain value its object
representation. -/
def murmurHash (bytes : List UInt8) (seed : UInt32) : Except Err UInt32 :=
  murmur3 bytes (sizeToInt bytes.length) seed

/-- `HashOneHotVectorizerTransformer` with a valid number of columns. -/
structure HashOneHot where
  seed : UInt32
  numCols : UInt32
  deriving DecidableEq, Repr

/-- The constructor (HashOneHotVectorizerFeaturizer.h 140–147). -/
def HashOneHot.new (seed numCols : UInt32) : Except Err HashOneHot :=
  if numCols ≤ 0 then .error .runtimeError else .ok ⟨seed, numCols⟩

/-- `execute_impl` (HashOneHotVectorizerFeaturizer.h 61–72). -/
def HashOneHot.exec (t : HashOneHot) (input : List UInt8) : Except Err (SingleValue UInt8) := do
  let h ← murmurHash input t.seed
  mkSingle t.numCols.toUInt64 1 (h % t.numCols).toUInt64

end Feat
