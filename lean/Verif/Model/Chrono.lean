import Verif.Model.Traits
/-
Serialization of clock types (Traits.h 1295–1500).
-/
namespace Feat

/-- `std::chrono::system_clock::time_point`: a signed 64-bit number of clock ticks since the epoch;
`perSec` ticks per second (10^9 with libstdc++, 10^7 with MSVC, 10^6 with libc++). -/
structure TimePoint (perSec : Nat) where
  ticks : Int64
  deriving DecidableEq, Repr

/-- `std::chrono::system_clock::duration`, `perMicro` ticks per microsecond (10^3, 10, 1). -/
structure Duration (perMicro : Nat) where
  ticks : Int64
  deriving DecidableEq, Repr

/-- `std::chrono::duration_cast` to a coarser unit of `q` ticks: integer division truncating toward
zero. -/
def castDown (q : Nat) (ticks : Int64) : Int64 := Int64.ofInt (ticks.toInt.tdiv q)

/-- `std::chrono::duration_cast` to a finer unit: multiplication, undefined on signed overflow. -/
def castUp (q : Nat) (n : Int64) : Except Err Int64 :=
  let r : Int := n.toInt * q
  if -2 ^ 63 ≤ r ∧ r < 2 ^ 63 then .ok (Int64.ofInt r) else .error .ub

/-- Read a 64-bit count of coarse units and convert it to ticks. -/
def readUp (q : Nat) : M Archive Int64 := do
  let n ← Scalar.read Int64
  match castUp q n with
  | .ok t => pure t
  | .error e => M.throw e

/-- `Traits<std::chrono::system_clock::time_point>` (Traits.h 1480–1500): `to_time_t` truncates to whole
seconds. -/
instance {q : Nat} : Traits (TimePoint q) where
  serialize tp := Scalar.write (castDown q tp.ticks)
  deserialize := do return ⟨← readUp q⟩

/-- `Traits<std::chrono::system_clock::duration>` (Traits.h 1337–1391): whole microseconds (with
`perMicro = 1` this is the `is_same` branch, which writes the count itself). -/
instance {q : Nat} : Traits (Duration q) where
  serialize d := Scalar.write (castDown q d.ticks)
  deserialize := do return ⟨← readUp q⟩

end Feat
