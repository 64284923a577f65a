import Verif.Model.Bridge

/-!
Specification for `bridge` and `resume`.
-/

namespace Verif.BridgeSpec

open Bridge

/-- What happened to call `r` of a `resume` function. -/
def ofCall (r : Nat) (log : List Ev) : List Ev :=
  log.filter fun
    | .call _ q | .start q | .finish q _ | .deliver _ q _ => q == r
    | _ => false

/-- What became of the function run by thread `t`. -/
def ofThread (t : Nat) (log : List Ev) : List Ev :=
  log.filter fun
    | .ret u _ | .result u _ => u == t
    | _ => false

/-- Thread `t` is running the user's code. -/
def Runs (s : St) (t : Nat) : Prop := (s.ext t).pos = .user

/-- Thread `t` is blocked in call `r`, whose coroutine has not ended. -/
def BlockedIn (s : St) (t r : Nat) : Prop :=
  (s.ext t).pos = .waiting r ∧ (s.req r).event = false

/-- The event-loop thread is waiting for thread `t`. -/
def WaitsFor (s : St) (t : Nat) : Prop := ∃ k, s.main = .blocked k ∧ s.pending[k]? = some t

/-- The thread that takes the step, if it is not the event loop's. -/
def thread : Act → Option Nat
  | .call t _ | .suspend t | .wake t | .ret t _ | .done t => some t
  | _ => none

/-- Schedules in which a bridge thread gets to run only while the event-loop thread is waiting for
it. -/
def polite (s : St) (a : Act) : Prop := ∀ t, thread a = some t → WaitsFor s t

/-- Nobody cancels a task that awaits a bridged function. -/
def noCancel (a : Act) : Prop := ∀ t, a ≠ .cancelAwaiter t

/-- Tasks of `resume` calls are not cancelled before they run, and their coroutines do not end with
`KeyboardInterrupt`, `SystemExit` or `BdbQuit`. -/
def noLoss (a : Act) : Prop := ∀ r, a ≠ .cancelReq r ∧ a ≠ .bubble r

/-- States reached by steps that satisfy `ok`. -/
inductive ReachBy (ok : St → Act → Prop) : St → Prop
  | init : ReachBy ok {}
  | step {s s' : St} {a : Act} : ReachBy ok s → ok s a → exec s a = some s' → ReachBy ok s'

end Verif.BridgeSpec
