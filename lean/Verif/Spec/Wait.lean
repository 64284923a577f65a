import Verif.Model.Wait

/-!
Specification of `wait`, `select` and `gather`, in terms of the order in which the awaitables
completed.  Nothing here depends on how the calls are implemented.
-/

namespace Verif.WaitSpec

open Sched Wait

/-- The tasks that ended, in order, as seen in the scheduler's log. -/
def order (w : World) (ws : List Nat) : List Nat :=
  w.log.filterMap fun
    | .done t _ _ => if t ∈ ws then some t else none
    | _ => none

/-- The task was cancelled or ended with an exception: `result()` raises. -/
def failed (w : World) (t : Nat) : Bool :=
  match w.result t with
  | .raises _ => true
  | _ => false

/-- The completion that meets the condition, if there is one: the first, the first failure, none. -/
def decider (m : Mode) (w : World) (ws : List Nat) : Option Nat :=
  match m with
  | .firstCompleted => (order w ws).head?
  | .firstException => (order w ws).find? (failed w)
  | .allCompleted => none

/-- Position in the argument list. -/
def position (ws : List Nat) (t : Nat) : Option Nat := ws.findIdx? (· == t)

/-- The caller has its condition: a completion met it, or an exception was thrown into the call. -/
def met (m : Mode) (w : World) : Wait.Obs → Bool
  | .ended t => match m with
    | .firstCompleted => true
    | .firstException => failed w t
    | .allCompleted => false
  | .thrown _ => true
  | .cancel _ => false

/-- The waiters that have ended according to the call's log. -/
def endedIn (log : List Wait.Obs) (t : Nat) : Bool := log.contains (.ended t)

end Verif.WaitSpec
