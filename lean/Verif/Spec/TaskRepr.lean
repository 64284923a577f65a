import Verif.Model.TaskRepr
/-!
# What is expected of the text of a task
-/
namespace Verif.TaskReprS
open Verif TaskRepr

/-- The word for a state. -/
def word : State → String
  | .unstarted => "created"
  | .scheduled => "scheduled"
  | .running => "running"
  | .pending _ => "pending"
  | .finished _ => "finished"
  | .errored _ => "error"
  | .cancelled _ => "cancelled"

/-- `repr(task)` returns the text: some depth of calls is enough for it. -/
def Prints (g : Nat → Info) (t : Nat) (s : PyStr) : Prop := ∃ n, reprTask g n t = some s

/-- The task occurs in the object, however deep, other than in `TaskComplete`. -/
inductive Occurs (u : Nat) : Obj → Prop where
  | task : Occurs u (.task u)
  | group (n : PyStr) (os : List Obj) (o : Obj) : o ∈ os → Occurs u o → Occurs u (.group n os)

/-- Task `t` waits for something that task `u` is part of. -/
def WaitsOn (g : Nat → Info) (u t : Nat) : Prop := ∃ trig, (g t).state = .pending trig ∧ Occurs u trig

/-- The coroutine that is at work, or suspended, innermost: the chain starts with coroutines, and this is the last of them that has
not finished. -/
def Innermost (l : List Link) (f : PyStr) : Prop :=
  ∃ pre post, l = pre ++ .coro (some f) :: post ∧ (∀ x ∈ pre, x ≠ .other) ∧
    ∃ fin rest, post = fin ++ rest ∧ (∀ x ∈ fin, x = .coro none) ∧ ∀ x r, rest = x :: r → x = .other

end Verif.TaskReprS
