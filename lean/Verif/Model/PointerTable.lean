import Verif.Model.Basic
import Verif.Model.UMapOps

/-!
# Model of `SharedLibrary/PointerTable.h`

Handles and pointers are natural numbers (0 is the null pointer and the reserved handle).  Each
operation holds the mutex while it touches the map, so operations of different threads take effect
one after the other; a history is the sequence in which they do.
-/

namespace Feat

/-- `std::unordered_map::erase` of the entry with key `k`. -/
def UMap.erase {K V : Type} [DecidableEq K] (m : UMap K V) (k : K) : UMap K V :=
  ⟨m.entries.filter (fun e => e.1 ≠ k), (List.filter_sublist.map _).nodup m.nodup⟩

/-- `PointerTable::m_un` — SharedLibrary/PointerTable.h 52. -/
abbrev PTable := UMap Nat Nat

namespace PTable

/-- The loop of `Add` — SharedLibrary/PointerTable.h 101–107: the first drawn number that is not in
use.  `draws` are the numbers that the generator delivers to this call; `none` if they are all in use
(the loop goes on). -/
def freeIndex (t : PTable) : List Nat → Option Nat
  | [] => none
  | d :: ds => if t.find? d = none then some d else freeIndex t ds

/-- `PointerTable::Add` — SharedLibrary/PointerTable.h 72–114.  The outer `none`: the call has not
returned.  (The check for duplicates is compiled in debug builds only.) -/
def add (t : PTable) (draws : List Nat) (p : Nat) : Option (Except Err Nat × PTable) :=
  if p = 0 then some (.error .invalidArgument, t)
  else match freeIndex t draws with
    | none => none
    | some i => some (.ok i, t.emplace i p)

/-- `PointerTable::Get` — SharedLibrary/PointerTable.h 116–133. -/
def get (t : PTable) (i : Nat) : Except Err Nat :=
  if i = 0 then .error .invalidArgument
  else match t.find? i with
    | none => .error .invalidArgument
    | some p => .ok p

/-- `PointerTable::Remove` — SharedLibrary/PointerTable.h 136–153. -/
def remove (t : PTable) (i : Nat) : Except Err Unit × PTable :=
  if i = 0 then (.error .invalidArgument, t)
  else match t.find? i with
    | none => (.error .invalidArgument, t)
    | some _ => (.ok (), t.erase i)

/-- An operation; an addition comes with the numbers that the generator delivers to it. -/
inductive Op where
  | add (p : Nat) (draws : List Nat)
  | get (i : Nat)
  | remove (i : Nat)

/-- What an operation did. -/
inductive Event where
  | added (p : Nat) (i : Nat)
  | addRejected (p : Nat)
  | addPending (p : Nat)
  | got (i : Nat) (p : Nat)
  | getRejected (i : Nat)
  | removed (i : Nat)
  | removeRejected (i : Nat)
deriving DecidableEq

/-- One operation. -/
def step (t : PTable) : Op → Event × PTable
  | .add p draws =>
    match add t draws p with
    | none => (.addPending p, t)
    | some (.error _, t') => (.addRejected p, t')
    | some (.ok i, t') => (.added p i, t')
  | .get i =>
    match get t i with
    | .error _ => (.getRejected i, t)
    | .ok p => (.got i p, t)
  | .remove i =>
    match remove t i with
    | (.error _, t') => (.removeRejected i, t')
    | (.ok (), t') => (.removed i, t')

/-- A history of operations on a table, and the table afterwards. -/
def run : PTable → List Op → List Event × PTable
  | t, [] => ([], t)
  | t, o :: os =>
    let r := step t o
    let rest := run r.2 os
    (r.1 :: rest.1, rest.2)

end PTable

end Feat
