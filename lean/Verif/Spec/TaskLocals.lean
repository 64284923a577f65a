import Verif.Model.TaskLocals
/-!
# Variables of tasks as the user sees them
-/
namespace Verif.Spec.Locals
open TaskLocals

/-- How many tasks there are, and which one runs. -/
structure View where
  count : Nat
  running : Option Nat

/-- What an event does to that. -/
def View.after (w : View) : Ev → View
  | .create => { w with count := w.count + 1 }
  | .resume k => if k < w.count then { w with running := some k } else w
  | .suspend => { w with running := none }
  | _ => w

/-- The task that is meant: the one given, if it exists, or the running one. -/
def View.meant (w : View) : Option Nat → Option Nat
  | none => w.running
  | some k => if k < w.count then some k else none

/-- The value that the variable `x` of task `k` was given last and not deleted since; `v` is the one before. No other task plays a part. -/
def lastValue (k x : Nat) : View → Option Int → List Ev → Option Int
  | _, v, [] => v
  | w, v, e :: es =>
    lastValue k x (w.after e) (match e with
      | .set t y u => if w.meant t = some k ∧ y = x then some u else v
      | .del t y => if w.meant t = some k ∧ y = x then none else v
      | _ => v) es

/-- Tasks and the running one after a history. -/
def viewOf (evs : List Ev) : View := evs.foldl View.after ⟨0, none⟩

end Verif.Spec.Locals
