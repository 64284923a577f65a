import Verif.Py.Int
/-!
# One running test: `_test_manager.py`

The tasks of a test are numbers; 0 is the main task. What user code does is an environment: it creates
tasks, its tasks end, tasks kill other tasks, the timeout fires, the regression manager cancels the test.
When the test is shut down, every task is resumed with CancelledError and must end (task.py:586-620 and
346-424); what its `finally` blocks do before is given by a `Cleanup` per task. Tasks made with the `Task`
class directly are not known to the TestManager and not modelled. KeyboardInterrupt, SystemExit and
leaving the debugger, which fail the whole simulation, are not modelled, nor is the debugger.
-/
namespace Verif.TestMgr

abbrev Exc := Nat

/-- `SimTimeoutError()` and `CancelledError(msg)` made by the TestManager. -/
def simTimeout : Exc := 0
def testCancelled : Exc := 1

/-- How a task ends: returns (or is killed), raises, raises EndTest (`cocotb.end_test`), or is cancelled. -/
inductive End where
  | returned
  | failed (e : Exc)
  | endTest
  | cancelled
  deriving DecidableEq, Repr

/-- A task has ended, and who was waiting for it then: `awaited` is someone waiting for the task itself or
for `task.complete`, `joined` someone waiting for `task.join()`. -/
structure Ended where
  task : Nat
  end_ : End
  awaited : Bool
  joined : Bool
  deriving DecidableEq, Repr

/-- What can be observed from outside. -/
inductive Obs where
  | ended (x : Ended)
  | timedOut
  | cancelled
  deriving DecidableEq, Repr

/-- What a task does while it is being cancelled. -/
inductive Sub where
  | create
  | kill (t : Nat)
  deriving DecidableEq, Repr

/-- How a task reacts to CancelledError: it does something, then lets it pass (`none`) or ends
otherwise, which the scheduler turns into a RuntimeError `e` (task.py:346-356, 385-408, 410-424). -/
structure Cleanup where
  subs : List Sub
  error : Option Exc
  awaited : Bool
  joined : Bool
  deriving DecidableEq, Repr

/-- State of a TestManager, _test_manager.py:46-64, with the number of calls of the completion callback
and what `exception()` was computed from then. `waiting`: `_on_complete` is registered with the `_done`
event; `armed`: the timeout is registered; `current`: this is `_current_test`. -/
structure TMState where
  started : Bool
  tasks : List Nat
  next : Nat
  excs : List Exc
  finishing : Bool
  doneSet : Bool
  waiting : Bool
  armed : Bool
  current : Bool
  completed : Nat
  verdict : Option (List Exc)
  log : List Obs
  deriving DecidableEq, Repr

/-- `TestManager(...)`, _test_manager.py:46-64. -/
def TMState.init : TMState :=
  { started := false, tasks := [], next := 1, excs := [], finishing := false, doneSet := false,
    waiting := false, armed := false, current := false, completed := 0, verdict := none, log := [] }

/-- `_on_complete`, _test_manager.py:160-168. -/
def complete (s : TMState) : TMState :=
  { s with current := false, completed := s.completed + 1, verdict := some s.excs, waiting := false }

/-- `self._done.set()`: runs `_on_complete` if it is registered. -/
def setDone (s : TMState) : TMState :=
  if s.waiting then complete { s with doneSet := true } else { s with doneSet := true }

/-- `del self._tasks[task]`. -/
def drop (t : Nat) (s : TMState) : TMState := { s with tasks := s.tasks.erase t }

/-- `remove_task`, _test_manager.py:175-178. -/
def removeTask (t : Nat) (s : TMState) : TMState :=
  if (drop t s).tasks = [] then setDone (drop t s) else drop t s

/-- `create_task` with a coroutine and `add_task`, _test_manager.py:170-173 and 385-400: refused if no
test is running. -/
def createTask (s : TMState) : TMState :=
  if s.current then { s with tasks := s.tasks ++ [s.next], next := s.next + 1, doneSet := false } else s

/-- Which call of `_abort` follows the end of a task: `_test_done_callback` (66-82) for the main task,
`_task_done_callback` (180-197) for the others. `none` is no call. -/
def consequence (x : Ended) : Option (Option Exc) :=
  if x.task = 0 then
    match x.end_ with
    | .failed e => some (some e)
    | _ => some none
  else
    match x.end_ with
    | .cancelled => none
    | .returned => none
    | .failed e => if x.awaited then none else some (some e)
    | .endTest => if x.awaited then none else some none

/-- `self._excs.append(exc)`, _test_manager.py:132-133. -/
def note (exc : Option Exc) (s : TMState) : TMState :=
  match exc with
  | some e => { s with excs := s.excs ++ [e] }
  | none => s

/-- Record an observation. -/
def observe (o : Obs) (s : TMState) : TMState := { s with log := s.log ++ [o] }

/-- The end of a task while the test is already finishing: `_abort` only notes the exception. -/
def endInner (x : Ended) (s : TMState) : TMState :=
  match consequence x with
  | none => removeTask x.task (observe (.ended x) s)
  | some exc => note exc (removeTask x.task (observe (.ended x) s))

/-- What a task `t` does while it is being cancelled; `by_` is the task whose code is running below this
(if any). Killing a running task raises RuntimeError in the code that tries, without further effect. -/
def doSub (by_ : Option Nat) (t : Nat) (s : TMState) : Sub → TMState
  | .create => createTask s
  | .kill u => if u ∈ s.tasks ∧ u ≠ t ∧ by_ ≠ some u then endInner ⟨u, .returned, false, false⟩ s else s

/-- `task._cancel_now()`, task.py:586-620, for a task that is not running. -/
def cancelOne (by_ : Option Nat) (t : Nat) (c : Cleanup) (s : TMState) : TMState :=
  let s1 := c.subs.foldl (doSub by_ t) s
  endInner ⟨t, match c.error with | none => .cancelled | some e => .failed e, c.awaited, c.joined⟩ s1

/-- The loop `for task in list(self._tasks): task._cancel_now()`, _test_manager.py:151-152. The flag is
false if `_cancel_now` raised because the task is running. -/
def cancelAll (by_ : Option Nat) (script : Nat → Cleanup) : List Nat → TMState → TMState × Bool
  | [], s => (s, true)
  | t :: ts, s =>
    if t ∈ s.tasks then
      if by_ = some t then (s, false)
      else cancelAll by_ script ts (cancelOne by_ t (script t) s)
    else cancelAll by_ script ts s

/-- `self._finishing = True` and cancelling the timeout, _test_manager.py:135-148. -/
def finish (s : TMState) : TMState := { s with finishing := true, armed := false }

/-- The end of `_abort`, _test_manager.py:154-158; not reached if the loop raised. -/
def await_ (r : TMState × Bool) : TMState :=
  if r.2 then (if r.1.doneSet then complete r.1 else { r.1 with waiting := true }) else r.1

/-- `_abort`, _test_manager.py:129-158. -/
def abort (by_ : Option Nat) (exc : Option Exc) (script : Nat → Cleanup) (s : TMState) : TMState :=
  let s1 := note exc s
  if s1.finishing then s1
  else await_ (cancelAll by_ script (finish s1).tasks (finish s1))

/-- The end of a task: done callbacks, task.py:305-319. -/
def endTask (by_ : Option Nat) (x : Ended) (script : Nat → Cleanup) (s : TMState) : TMState :=
  let s1 := removeTask x.task (observe (.ended x) s)
  match consequence x with
  | none => s1
  | some exc => abort by_ exc script s1

/-- `start`, _test_manager.py:84-98; `timeout`: a timeout is given. -/
def start (timeout : Bool) (s : TMState) : TMState :=
  { s with started := true, current := true, tasks := s.tasks ++ [0], armed := timeout }

/-- Events. -/
inductive Ev where
  | start (timeout : Bool)
  | create
  | ends (x : Ended) (script : Nat → Cleanup)
  | kill (by_ t : Nat) (awaited joined : Bool) (script : Nat → Cleanup)
  | timeout (script : Nat → Cleanup)
  | cancel (script : Nat → Cleanup)

/-- One event; events that cannot happen change nothing. -/
def step (ev : Ev) (s : TMState) : TMState :=
  match ev with
  | .start timeout => if s.started then s else start timeout s
  | .create => createTask s
  | .ends x script => if x.task ∈ s.tasks then endTask none x script s else s
  | .kill r t aw jn script =>
    if r ∈ s.tasks ∧ t ∈ s.tasks ∧ r ≠ t then endTask (some r) ⟨t, .returned, aw, jn⟩ script s else s
  | .timeout script =>
    if s.armed then abort none (some simTimeout) script (observe .timedOut { s with armed := false }) else s
  | .cancel script => abort none (some testCancelled) script (observe .cancelled s)

/-- All events. -/
def run : List Ev → TMState → TMState
  | [], s => s
  | ev :: evs, s => run evs (step ev s)

/-- `exception()`, _test_manager.py:104-110: nothing, an exception, or a group. -/
inductive Verdict where
  | nothing
  | one (e : Exc)
  | group (l : List Exc)
  deriving DecidableEq, Repr

/-- `exception()`. -/
def exception (excs : List Exc) : Verdict :=
  if excs ≠ [] then
    match excs with
    | [e] => .one e
    | l => .group l
  else .nothing

end Verif.TestMgr
