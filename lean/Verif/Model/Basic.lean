/-
Common vocabulary of the model: exceptions and operations on mutable objects.
-/
namespace Feat

/-- The C++ exception classes thrown by the modelled code, plus `ub`: the execution performed an
operation whose behaviour C++ does not define (out-of-bounds read, invalid `bool`, ...).  `ub` is
*not* an exception; theorems that say "throws" exclude it explicitly.  `badAlloc`: memory was exhausted. -/
inductive Err where
  | invalidArgument | runtimeError | outOfRange | logicError | overflow | badAlloc | ub
  deriving DecidableEq, Repr

/-- The outcome is a C++ exception (as opposed to undefined behaviour). -/
def Err.isException : Err → Prop
  | .ub => False
  | _ => True

instance (e : Err) : Decidable e.isException := by
  cases e <;> unfold Err.isException <;> infer_instance

/-- A call on a mutable object of state `σ`: the result (value or exception) *and* the state after
the call.  The state is returned also when the call throws. -/
def M (σ α : Type) : Type := σ → Except Err α × σ

/-- The same as `M`, as a plain function type (used where no `do` notation is needed). -/
abbrev Op (σ α : Type) : Type := σ → Except Err α × σ

namespace M
variable {σ α β : Type}

/-- Return a value without touching the state. -/
protected def pure (a : α) : M σ α := fun s => (.ok a, s)

/-- Sequencing; an exception skips the continuation, and the state is the one at the throw. -/
protected def bind (m : M σ α) (f : α → M σ β) : M σ β := fun s =>
  match m s with
  | (.ok a, s') => f a s'
  | (.error e, s') => (.error e, s')

instance : Monad (M σ) where
  pure := M.pure
  bind := M.bind

/-- `throw`. -/
def throw (e : Err) : M σ α := fun s => (.error e, s)

/-- Read the object. -/
def get : M σ σ := fun s => (.ok s, s)

/-- Overwrite the object. -/
def set (s : σ) : M σ Unit := fun _ => (.ok (), s)

theorem pure_run (a : α) (s : σ) : (pure a : M σ α) s = (.ok a, s) := rfl

theorem bind_run (m : M σ α) (f : α → M σ β) (s : σ) :
    (m >>= f) s = match m s with
      | (.ok a, s') => f a s'
      | (.error e, s') => (.error e, s') := rfl

theorem bind_ok {m : M σ α} {s s' : σ} {a : α} (f : α → M σ β) (h : m s = (.ok a, s')) :
    (m >>= f) s = f a s' := by rw [bind_run, h]

theorem bind_error {m : M σ α} {s s' : σ} {e : Err} (f : α → M σ β)
    (h : m s = (.error e, s')) : (m >>= f) s = (.error e, s') := by rw [bind_run, h]

end M
end Feat
