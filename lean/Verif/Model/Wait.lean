import Verif.Model.Sched

/-!
Model of src/cocotb/_concurrent_waiters.py (`wait`, `select`, `gather`) on top of the scheduler
model: one call of `wait`, made by an arbitrary task after an arbitrary history, while all other code
does arbitrary things.

Simplifications:
  * The waiter tasks are created by the call: their numbers are arbitrary unused ones.
  * The done callback of the call is the first one registered with each waiter (178-180 register it
    before anything else can), so it is recognised by its position in the list.
  * Other code does not use the private event of the call, does not `kill()` the call's own tasks (a
    deprecated method), and uses the private `_cancel_now()` only as its documentation allows: not
    while a task is running, and not on the call's own tasks.
  * `coro.close()` of a caller that is not allowed to go on (task.py 414) throws `GeneratorExit` into
    the call; this is done just before the caller's outcome is set, as in the code.
-/

namespace Verif.Wait

open Sched

/-- `ReturnWhenType`, _concurrent_waiters.py 21-23. -/
inductive Mode | firstCompleted | firstException | allCompleted
  deriving DecidableEq, Repr

/-- Where the call is. -/
inductive Phase
  | idle
  /-- suspended at `await complete`, line 183 -/
  | awaiting
  /-- suspended at `await NullTrigger()`, line 191 -/
  | draining
  | returned (idx : Option Nat)
  | raised (e : Exc)
  /-- the calling task was ended by the scheduler at one of these awaits -/
  | closed
  deriving DecidableEq, Repr

/-- Observations: a waiter's end was announced to the call; an exception was thrown into the call
(`none` is `GeneratorExit`); the call cancelled a waiter. -/
inductive Obs
  | ended (t : Nat)
  | thrown (e : Option Exc)
  | cancel (t : Nat)
  deriving DecidableEq, Repr

/-- The local variables of `_wait`, _concurrent_waiters.py 129-137, next to the scheduler's state. -/
structure WS where
  w : World := {}
  mode : Mode := .allCompleted
  parent : Nat := 0
  waiters : List Nat := []
  remaining : List Nat := []
  first : Option Nat := none
  cancelled : Bool := false
  phase : Phase := .idle
  log : List Obs := []

/-- The number of the private event `complete`, line 133. -/
def complete : Nat := 0

/-- `cancel_remaining`, _concurrent_waiters.py 139-145. -/
def cancelRemaining (s : WS) : WS :=
  if s.cancelled then s
  else { s with
    cancelled := true
    w := s.remaining.foldl (fun w t => api w (.cancel t)) s.w
    log := s.log ++ s.remaining.map .cancel }

/-- The condition in `done_callback` under which `first_completed` is set, beside being unset:
always (154), `task.cancelled() or task.exception() is not None` (165-167), never (173-176). -/
def decides (m : Mode) (w : World) (t : Nat) : Bool :=
  match m with
  | .firstCompleted => true
  | .firstException => w.cancelled t || decide (w.exception t ≠ .returnsNone)
  | .allCompleted => false

/-- `done_callback`, _concurrent_waiters.py 149-176. -/
def doneCallback (s : WS) (t : Nat) : WS :=
  let s1 := { s with
    remaining := s.remaining.erase t
    log := s.log ++ [.ended t] }
  let s2 := if s1.remaining = [] then { s1 with w := api s1.w (.setE complete) } else s1
  if s2.first = none ∧ decides s2.mode s2.w t = true then
    cancelRemaining { s2 with first := some t }
  else s2

/-- What becomes of the call when its task has awaited a trigger. -/
def suspended (s : WS) (ph : Phase) : WS :=
  { s with phase := if s.w.done s.parent then .closed else ph }

/-- Creating and starting the waiters, lines 129-137 and 178-180. -/
def enroll (s : WS) (p : Nat) (ts : List Nat) (m : Mode) : WS :=
  { s with
    mode := m
    parent := p
    waiters := ts
    remaining := ts
    w := ts.reverse.foldl (fun w t => api (api w (.addCb t)) (.startNext t)) s.w }

/-- The start of `_wait` by the running task `p`, lines 129-183. -/
def start (s : WS) (p : Nat) (ts : List Nat) (m : Mode) : Option WS :=
  let s1 := enroll s p ts m
  let s2 := if (s1.w.task p).mustCancel > 0 then
      cancelRemaining { s1 with log := s1.log ++ [.thrown none] } else s1
  match exec s2.w (.await (.event complete) false) with
  | none => none
  | some (w', _) => some (suspended { s2 with w := w' } .awaiting)

/-- The loop of lines 189-196. -/
def drain (s : WS) : Option WS :=
  if s.remaining = [] then some { s with phase := .raised .cancelled }
  else match exec s.w (.await (.null 0) false) with
    | none => none
    | some (w', _) => some (suspended { s with w := w' } .draining)

/-- `current_task()._uncancel()` (187, 195) and what follows; without a current task
`current_task()` raises (task.py 727-728). -/
def uncancelAndDrain (s : WS) : Option WS :=
  match s.w.current with
  | none => some { s with phase := .raised .runtimeError }
  | some u => drain { s with w := api s.w (.uncancel u) }

/-- The calling task is resumed inside the call, lines 182-205. -/
def goOn (s : WS) : Option WS :=
  match s.phase, (s.w.task s.parent).exc with
  | .awaiting, none => some { s with phase := .returned (s.first.map (s.waiters.idxOf ·)) }
  | .awaiting, some .cancelled =>
    uncancelAndDrain (cancelRemaining { s with log := s.log ++ [.thrown (some .cancelled)] })
  | .awaiting, some e =>
    some { cancelRemaining { s with log := s.log ++ [.thrown (some e)] } with phase := .raised e }
  | .draining, none => drain s
  | .draining, some .cancelled => uncancelAndDrain s
  | .draining, some e => some { s with phase := .raised e }
  | _, _ => some s

/-- What other code may do; see the head of this file. -/
def allowed (s : WS) (a : Act) : Bool :=
  (quiet s.w || a == .cbStep) &&
  match a with
  | .setE e => e != complete
  | .clearE e => e != complete
  | .await (.event e) _ => e != complete
  | .kill t => !s.waiters.contains t
  | .cancelNow t => !s.waiters.contains t && nobodyRuns s.w
  | _ => true

/-- The caller is suspended inside the call. -/
def Phase.inside : Phase → Bool
  | .awaiting | .draining => true
  | _ => false

/-- After action `a` of other code in state `old`: the call's own code runs if it was called. -/
def hook (old : World) (s : WS) (a : Act) : Option WS :=
  match a, old.stack, s.w.stack with
  | .cbStep, .finishing t 0 _ :: _, _ => if t ∈ s.waiters then some (doneCallback s t) else some s
  | .pop, _, .running t :: _ => if t = s.parent ∧ s.phase.inside then goOn s else some s
  | .cancelNow _, _, .running t :: _ => if t = s.parent ∧ s.phase.inside then goOn s else some s
  | _, _, _ => some s

inductive WAct
  /-- anything other code does -/
  | sched (a : Act)
  /-- the running task calls `wait`, its waiter tasks being `ts` -/
  | wait (ts : List Nat) (m : Mode)

/-- One step. -/
def exec (s : WS) : WAct → Option WS
  | .sched a =>
    if allowed s a then
      match Sched.exec s.w a with
      | none => none
      | some (w', _) => hook s.w { s with w := w' } a
    else none
  | .wait ts m =>
    match s.w.stack with
    | .running p :: _ =>
      if s.phase = .idle ∧ s.w.halted = false ∧ s.w.inside = true ∧ ts ≠ [] ∧ ts.Nodup ∧
          ∀ t ∈ ts, s.w.task t = {} then
        start s p ts m
      else none
    | _ => none

def run : WS → List WAct → Option WS
  | s, [] => some s
  | s, a :: as => match exec s a with
    | some s' => run s' as
    | none => none

/-- States reached by some schedule of some programs, one call of `wait` being looked at. -/
def Reach (s : WS) : Prop := ∃ as, run {} as = some s

/-- What the caller of `select` gets, lines 244-246: index and result. -/
def selectResult (s : WS) : Option (Nat × Query) :=
  match s.phase with
  | .returned (some i) => (s.waiters[i]?).map fun t => (i, s.w.result t)
  | _ => none

/-- What the caller of `gather` gets, lines 300-308: the failing task's `result()`, or all results. -/
inductive Gathered
  | one (q : Query)
  | all (qs : List Query)
  deriving DecidableEq, Repr

def gatherResult (s : WS) : Option Gathered :=
  match s.phase with
  | .returned (some i) => (s.waiters[i]?).map fun t => .one (s.w.result t)
  | .returned none => some (.all (s.waiters.map s.w.result))
  | _ => none

end Verif.Wait
