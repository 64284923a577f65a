import Verif.Model.GpiCb

/-!
Specification for simulator callbacks.
-/

namespace Verif.GpiCbSpec

open GpiCb

/-- States reached by steps that satisfy `ok`. -/
inductive ReachBy (c : Cfg) (ok : St → Act → Prop) : St → Prop
  | init : ReachBy c ok {}
  | step {s s' : St} {a : Act} : ReachBy c ok s → ok s a → exec c s a = some s' → ReachBy c ok s'

/-- All of them. -/
def Reach (c : Cfg) : St → Prop := ReachBy c fun _ _ => True

/-- No memory is used after it was deleted. -/
def Safe (s : St) : Prop := ∀ h, .dangling h ∉ s.log

/-- How often the Python function of `h` was called. -/
def runs (h : Nat) (log : List Ev) : Nat := log.count (.run h)

/-- The simulator does not call back for `h` while `h` is running or waiting in the queue, and Python does
not remove `h` while it is waiting in the queue, if it is a value-change callback and the build does not
remove it from the simulator then. -/
def calm (c : Cfg) (h : Nat) (s : St) : Act → Prop
  | .fire h' _ _ => h' = h → h ∉ s.queue ∧ h ∉ s.stack.map Prod.fst
  | .remove h' _ => h' = h → h ∉ s.queue ∨ (s.obj h).kind = .oneShot ∨ c.recurring = true
  | _ => True

end Verif.GpiCbSpec
