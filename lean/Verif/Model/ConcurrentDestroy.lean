import Verif.Model.PointerTable

/-!
# Threads that destroy objects through handles

The destroy functions of the C interface (SharedLibrary_CatImputerFeaturizer.cpp 65–86 and 285–306,
SharedLibrary_Common.cpp 42–55) look the handle up, remove it and delete the object in three steps; the
mutex of the table (PointerTable.h 72–153) makes each of the first two atomic, but not the three
together.  Any number of threads run them; other threads add objects meanwhile.  Objects are numbers that
are not used again (an address that is allocated again stands for another object).
-/

namespace Feat

namespace Destroy

/-- Where a thread is in a destroy function. -/
inductive Thread where
  /-- not started; it will destroy the handle `h` -/
  | ready (h : Nat)
  /-- `g_pointerTable.Get` returned the object `p` -/
  | found (h p : Nat)
  /-- `g_pointerTable.Remove` returned -/
  | unlinked (h p : Nat)
  /-- `delete` was executed: the call returns `true` -/
  | deleted (h p : Nat)
  /-- `Get` or `Remove` threw: the call returns `false` -/
  | refused (h : Nat)

/-- The table, the threads, and (for stating things) the handles handed out so far. -/
structure State where
  table : PTable
  threads : Nat → Thread
  seen : List Nat

/-- Thread `k` is at `t` now. -/
def State.at (s : State) (k : Nat) (t : Thread) : State :=
  { s with threads := fun j => if j = k then t else s.threads j }

/-- A step of some thread.  `Reuse`: numbers drawn for new handles may have been handles before. -/
inductive Step (Reuse : Prop) : State → State → Prop
  | lookup {s : State} {k h p : Nat} (ht : s.threads k = .ready h) (hg : s.table.get h = .ok p) :
      Step Reuse s (s.at k (.found h p))
  | lookupFails {s : State} {k h : Nat} {e : Err} (ht : s.threads k = .ready h)
      (hg : s.table.get h = .error e) : Step Reuse s (s.at k (.refused h))
  | unlink {s : State} {k h p : Nat} {t : PTable} (ht : s.threads k = .found h p)
      (hg : s.table.remove h = (.ok (), t)) :
      Step Reuse s { s.at k (.unlinked h p) with table := t }
  | unlinkFails {s : State} {k h p : Nat} {t : PTable} {e : Err} (ht : s.threads k = .found h p)
      (hg : s.table.remove h = (.error e, t)) :
      Step Reuse s { s.at k (.refused h) with table := t }
  | delete {s : State} {k h p : Nat} (ht : s.threads k = .unlinked h p) :
      Step Reuse s (s.at k (.deleted h p))
  | add {s : State} {draws : List Nat} {p i : Nat} {t : PTable}
      (hg : s.table.add draws p = some (.ok i, t)) (hr : Reuse ∨ i ∉ s.seen) :
      Step Reuse s { s with table := t, seen := i :: s.seen }

/-- Any number of steps. -/
inductive Steps (Reuse : Prop) : State → State → Prop
  | refl (s : State) : Steps Reuse s s
  | step {s s' s'' : State} (h : Steps Reuse s s') (h' : Step Reuse s' s'') : Steps Reuse s s''

/-- No thread has begun; the handles in the table have been handed out. -/
structure State.Initial (s : State) : Prop where
  ready : ∀ k, ∃ h, s.threads k = .ready h
  seen : ∀ h p, s.table.find? h = some p → h ∈ s.seen

end Destroy

end Feat
