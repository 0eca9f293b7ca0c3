import Verif.Model.Traits
/-
What "serialization round trip" and "truncated data" mean, independently of how any type is encoded.
-/
namespace Feat

/-- A reading archive over `bytes` whose cursor is `off` bytes into them. -/
abbrev Archive.rd (h : Endian) (space base : Nat) (bytes : List UInt8) (off : Nat) : Archive :=
  { mode := .deserializing, host := h, space, buf := bytes, base, cur := base + off }

/-- The buffer of `n` bytes at `base` ends at least 2^32 bytes before the end of the address space. -/
def Roomy (space base n : Nat) : Prop := base + n + 2 ^ 32 ≤ space

/-- `m` writes exactly `bs`. -/
def Writes (m : M Archive Unit) (bs : List UInt8) : Prop :=
  ∀ a : Archive, a.mode = .serializing → m a = (.ok (), { a with buf := a.buf ++ bs })

/-- `m` reads `v` from `bs`, consuming exactly `bs`, on any host, at any address, whatever bytes come
before and after. -/
def Reads {α : Type} (m : M Archive α) (bs : List UInt8) (v : α) : Prop :=
  ∀ h space base pre post, Roomy space base (pre ++ bs ++ post).length →
    m (.rd h space base (pre ++ bs ++ post) pre.length)
      = (.ok v, .rd h space base (pre ++ bs ++ post) (pre ++ bs).length)

/-- When only a proper prefix of `bs` is left, `m` throws (on any host, at any address). -/
def Truncs {α : Type} (m : M Archive α) (bs : List UInt8) : Prop :=
  ∀ h space base pre k, k < bs.length → Roomy space base (pre ++ bs).length →
    ∃ e a', m (.rd h space base (pre ++ bs.take k) pre.length) = (.error e, a') ∧ e.isException

/-- The values a container can hold in an archive: every collection inside has fewer than 2^32
elements (its length is written as a 32-bit number), every matrix dimension fits a signed 64-bit
number. -/
class Fits (T : Type) where
  fits : T → Prop

instance (priority := low) {T : Type} [Scalar T] : Fits T := ⟨fun _ => True⟩
instance : Fits Str := ⟨fun s => s.chars.length < 2 ^ 32⟩
instance {T : Type} [Fits T] : Fits (List T) :=
  ⟨fun l => l.length < 2 ^ 32 ∧ ∀ x ∈ l, Fits.fits x⟩
instance {T : Type} {n : Nat} [Fits T] : Fits (Arr T n) := ⟨fun a => ∀ x ∈ a.items, Fits.fits x⟩
instance {A B : Type} [Fits A] [Fits B] : Fits (A × B) :=
  ⟨fun p => Fits.fits p.1 ∧ Fits.fits p.2⟩
instance {T : Type} [Fits T] : Fits (Option T) := ⟨fun o => ∀ v, o = some v → Fits.fits v⟩
instance {K V : Type} [LinearOrder K] [Fits K] [Fits V] : Fits (OMap K V) :=
  ⟨fun m => m.entries.length < 2 ^ 32 ∧ ∀ e ∈ m.entries, Fits.fits e.1 ∧ Fits.fits e.2⟩
instance {K V : Type} [Fits K] [Fits V] : Fits (UMap K V) :=
  ⟨fun m => m.entries.length < 2 ^ 32 ∧ ∀ e ∈ m.entries, Fits.fits e.1 ∧ Fits.fits e.2⟩
instance {K : Type} [Fits K] : Fits (USet K) :=
  ⟨fun m => m.elems.length < 2 ^ 32 ∧ ∀ e ∈ m.elems, Fits.fits e⟩
instance {T : Type} {c : Bool} [Fits T] : Fits (Mat T c) :=
  ⟨fun m => m.inner < 2 ^ 63 ∧ m.outer.length < 2 ^ 63 ∧ ∀ l ∈ m.outer, ∀ x ∈ l, Fits.fits x⟩

/-- The codec laws of a type: every value that fits is written as some byte string, which reads back as
the same value, and no proper prefix of which is accepted. -/
class Codec (T : Type) [Traits T] [Fits T] where
  bytes : T → List UInt8
  writes : ∀ v, Fits.fits v → Writes (Traits.serialize v) (bytes v)
  reads : ∀ v, Fits.fits v → Reads (Traits.deserialize : M Archive T) (bytes v) v
  truncs : ∀ v, Fits.fits v → Truncs (Traits.deserialize : M Archive T) (bytes v)

end Feat
