import Verif.Model.TaskManager
import Verif.Spec.Wait

/-!
Specification of `TaskManager`, in terms of the order in which the children and the block ended.
Nothing here depends on how the manager is implemented.
-/

namespace Verif.TMSpec

open Sched TM

/-- The children, with their `continue_on_error`. -/
def children (log : List TM.Obs) : List (Nat × Bool) :=
  log.filterMap fun
    | .child t c => some (t, c)
    | _ => none

/-- The exception the task ended with, if it did: `exception()` returns one. -/
def failed (w : World) (t : Nat) : Option Exc :=
  match w.exception t with
  | .returnsExc e => some e
  | _ => none

/-- The children in the order in which they ended. -/
def order (s : TS) : List Nat := WaitSpec.order s.w ((children s.log).map (·.1))

/-- What the children failed with, in that order. -/
def failures (s : TS) : List (Option Nat × Exc) :=
  (order s).filterMap fun t => (failed s.w t).map fun e => (some t, e)

/-- How the block ended, if it has. -/
def ending (log : List TM.Obs) : Option (Option Exc) :=
  log.findSome? fun
    | .block e => some e
    | _ => none

/-- What the block failed with: anything but a cancellation. -/
def blockFailure (log : List TM.Obs) : List (Option Nat × Exc) :=
  match ending log with
  | some (some .cancelled) => []
  | some (some e) => [(none, e)]
  | _ => []

/-- Things after which everything has to be cancelled: a child that was not to be continued after
failed; the block was cancelled, ended by a fatal exception, or failed and was not to be continued
after; or it was interrupted or closed. -/
def stops (ctx : Bool) (w : World) (K : List (Nat × Bool)) : TM.Obs → Bool
  | .ended t => (failed w t).isSome && K.contains (t, false)
  | .block (some (.fatal _)) => true
  | .block (some .cancelled) => true
  | .block (some _) => !ctx
  | .interrupted => true
  | .closed => true
  | _ => false

/-- The block has ended. -/
def over (log : List TM.Obs) : Bool :=
  log.any fun
    | .block _ => true
    | .interrupted => true
    | .closed => true
    | _ => false

def endedIn (log : List TM.Obs) (t : Nat) : Bool := log.contains (.ended t)

/-- The children that have not ended. -/
def left (log : List TM.Obs) : List Nat :=
  ((children log).map (·.1)).filter fun t => !endedIn log t

/-- Everything that is to be cancelled after `log`: the block if it has not ended, and the children that
have not. -/
def cancellations (log : List TM.Obs) : List TM.Obs :=
  (if over log then [] else [.cancelParent]) ++ (left log).map .cancel

def isCancel : TM.Obs → Bool
  | .cancel _ => true
  | .cancelParent => true
  | _ => false

/-- Tasks may be added: the block was entered, it has not ended, there has been nothing to cancel it
for, and the caller is the task that entered it. -/
def open_ (s : TS) : Bool :=
  s.log.contains .entered && !over s.log && !s.log.any (stops s.ctx s.w (children s.log)) &&
    s.w.current == some s.parent

end Verif.TMSpec
