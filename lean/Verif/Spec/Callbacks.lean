import Verif.Model.Callbacks
/-
What it means for a call of `execute` or `flush` to survive an exception thrown by the user's callback.
`op t` is the call on a transformer in state `t` (with a fixed input).
-/
namespace Feat.Callbacks
variable {T O : Type}

/-- A callback that returns normally on each of these values, passed one after the other. -/
def Accepts (cb : Callback O) (values : List O) : Prop :=
  ∀ before o after, values = before ++ o :: after → cb before o = none

/-- When the callback throws, repeating the call passes the values that are still missing, beginning with the one at
which the callback threw, and ends as the undisturbed call would have ended. -/
def Repeatable (op : T → Prog T O) : Prop :=
  ∀ t cb e, ((op t).runWith cb []).ending = .thrown e →
    (op ((op t).runWith cb []).state).run =
      ⟨(op t).run.outs.drop (((op t).runWith cb []).values.length - 1), (op t).run.err, (op t).run.next⟩

/-- When the callback throws, the transformer is left as the undisturbed call would have left it: going on with the next
input loses the values of this call and nothing else. -/
def Skippable (op : T → Prog T O) : Prop :=
  ∀ t cb e, ((op t).runWith cb []).ending = .thrown e → ((op t).runWith cb []).state = (op t).run.next

/-- `q` is what is left of `p` at some point. -/
inductive Left : Prog T O → Prog T O → Prop where
  | here (p) : Left p p
  | later {o now rest q} : Left rest q → Left (.call o now rest) q

/-- The call can be interrupted at any callback and resumed by calling it again: the repeated call does exactly what the
interrupted one still had to do, state by state.  (Stronger than `Repeatable`; see `C80_resumable`.) -/
def Resumable (op : T → Prog T O) : Prop :=
  ∀ t o now rest, Left (op t) (.call o now rest) → op now = .call o now rest

/-- What a caller gets who repeats a call as long as its callback throws, with the callbacks of `cbs` in turn: the
values accepted by the callbacks, how the last call ended, and the state afterwards. -/
def attempts (op : T → Prog T O) : List (Callback O) → T → Seen T O
  | [], t => ⟨[], .thrown .runtimeError, t⟩
  | cb :: cbs, t =>
    match (op t).runWith cb [] with
    | ⟨values, .thrown _, t'⟩ =>
      let s := attempts op cbs t'
      ⟨values.dropLast ++ s.values, s.ending, s.state⟩
    | s => s

/-- How an undisturbed call ended. -/
def Ends : Option Err → Ending
  | none => .returned
  | some e => .failed e

/-- Two calls pass the same values and end alike; if they return, they leave the same state. -/
def Alike (a b : Run T O) : Prop := a.outs = b.outs ∧ a.err = b.err ∧ (a.err = none → a.next = b.next)

end Feat.Callbacks
