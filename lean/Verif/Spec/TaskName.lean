import Verif.Model.TaskName
/-!
# Names of tasks as the user sees them
-/
namespace Verif.Spec
open TaskName

/-- How many tasks one event creates. -/
def creates : Ev → Nat
  | .create _ _ => 1
  | _ => 0

/-- How many tasks were created. -/
def created (evs : List Ev) : Nat := (evs.map creates).sum

/-- The name that an event gives the `k`-th task, if there were `n` tasks before. -/
def names (k n : Nat) : Ev → Option PyStr
  | .create _ (some v) => if n = k then some v else none
  | .setName j v => if j = k ∧ k < n then some v else none
  | _ => none

/-- The name that the user gave the `k`-th task last, if any, with `n` tasks and the name `v` before. -/
def given (k : Nat) : Nat → Option PyStr → List Ev → Option PyStr
  | _, v, [] => v
  | n, v, e :: es => given k (n + creates e) ((names k n e).or v) es

/-- The events that create tasks of classes derived from `Task`. -/
def derived : Ev → Prop
  | .create (some _) _ => True
  | _ => False

/-- How many tasks of the class `c` were created. -/
def ofClass (c : Option Nat) : List Ev → Nat
  | [] => 0
  | .create d _ :: es => (if d = c then 1 else 0) + ofClass c es
  | _ :: es => ofClass c es

/-- How many tasks of the class `Task` itself were created before the first one of the `k`-th derived class. -/
def before (k : Nat) : List Ev → Nat
  | [] => 0
  | .create none _ :: es => 1 + before k es
  | .create (some j) _ :: es => if j = k then 0 else before k es
  | _ :: es => before k es

/-- The number of a task of the class `c` that is created after `evs`. -/
def number (evs : List Ev) : Option Nat → Nat
  | none => ofClass none evs
  | some k => before k evs + ofClass (some k) evs

end Verif.Spec
