/-
Model of cocotb's scheduler: the event loop, `Task`, the `Trigger` protocol, and the
triggers whose behaviour depends on the scheduler (`Event`, `Lock`, `NullTrigger`,
`Task.complete`, `Join`, and the simulator-backed `GPITrigger`s).

Sources (all in /repo/src/cocotb):
  _event_loop.py 15-78, task.py 54-63, 270-452, 454-490, 543-628, 634-700, 759-761,
  _base_triggers.py 31-113, 129-133, 218-247, 306-436, 529, _gpi_triggers.py 40-54.

How user code is modelled.  The body of a coroutine, a done callback, or code the simulator
calls into is arbitrary Python.  It can only influence the scheduler through the API, so it is
modelled as an adversary: whenever some code is running, the environment may perform *any* API
action (`Act`), and finally suspends, returns or raises.  "All schedules and all programs" is
"all lists of actions".

Simplifications, each an over-approximation or stated here:
  * Task, trigger, event and lock objects are numbered in advance instead of being allocated:
    a never used number is an object not created yet.
  * A `KeyboardInterrupt`/`SystemExit`/`BdbQuit` that leaves a task (task.py 374-384) ends the
    model's execution after the done callbacks and wake-ups: the real one unwinds to the
    simulator and ends the simulation.
  * Done callbacks do not raise.
  * `coro.close()` (task.py 365, 414) is not a separate step: whatever the coroutine does while
    being closed it may as well do just before.
  * Debug logging, names, tracebacks and `ResourceWarning`s are omitted.
-/

namespace Verif.Sched

/-- Functional update. -/
def upd {α β : Type} [DecidableEq α] (f : α → β) (a : α) (b : β) : α → β :=
  fun x => if x = a then b else f x

/-- task.py 54-63 `_TaskState`. -/
inductive TState
  | unstarted | scheduled | pending | running | finished | errored | cancelled
  deriving DecidableEq, Repr

/-- The exceptions the scheduler distinguishes.  `fatal` stands for `KeyboardInterrupt`,
`SystemExit` and `BdbQuit` (task.py 374); `user n` for any other exception. -/
inductive Exc
  | cancelled            -- `asyncio.CancelledError`
  | typeError            -- coroutine yielded a non-Trigger (task.py 425)
  | runtimeError
  | primeError           -- whatever `trigger._prime()` raised (task.py 446)
  | fatal (n : Nat)
  | user (n : Nat)
  deriving DecidableEq, Repr

/-- `Task._outcome`. `noneKilled` is the `None` stored by `kill()` (task.py 487). -/
inductive Outcome
  | value (v : Nat)
  | noneKilled
  | exc (e : Exc)
  deriving DecidableEq, Repr

/-- Trigger objects.  The identity of a trigger says which class it is:
`gpi n` any simulator-backed trigger (`Timer`, edges, phases), `event e` the trigger returned by
`Event.wait()` of event `e` (_base_triggers.py 230-239: one per event), `null n` a `NullTrigger`,
`lock l n` the `n`-th object returned by `Lock.acquire()` of lock `l` (420-422),
`complete t`/`join t` the cached `Task.complete`/`Task._join` of task `t` (task.py 492-541). -/
inductive Trig
  | gpi (n : Nat)
  | event (e : Nat)
  | null (n : Nat)
  | lock (l n : Nat)
  | complete (t : Nat)
  | join (t : Nat)
  deriving DecidableEq, Repr

/-- The mutable fields of a `Task`, task.py 137-151. -/
structure TaskRec where
  state : TState := .unstarted
  /-- `_exc`: thrown into the coroutine at the next resume. -/
  exc : Option Exc := none
  /-- `_must_cancel` -/
  mustCancel : Nat := 0
  /-- `_trigger_callback`: the trigger and the callback handle in it. -/
  tcb : Option (Trig × Nat) := none
  /-- `_schedule_callback`: identity of the event loop entry. -/
  scb : Option Nat := none
  /-- `_done_callbacks`: identities of the registered callbacks. -/
  doneCbs : List Nat := []
  /-- `_outcome` -/
  outcome : Option Outcome := none
  deriving Repr, DecidableEq

/-- An event loop entry, `ScheduledCallback` (_event_loop.py 15-32). In the scheduler the function
is always some task's `_resume`. -/
structure Entry where
  id : Nat
  task : Nat
  cancelled : Bool
  deriving Repr, DecidableEq

/-- `Lock` (_base_triggers.py 375-390): `_current_acquired` and `_pending_primed`, by the number of
the `acquire()` object. -/
structure LockRec where
  current : Option Nat := none
  pending : List Nat := []
  deriving Repr, DecidableEq

/-- What is executing, innermost first: the coroutine of a task inside `_resume`, or the
done-callback loop of `_set_outcome` (task.py 313-315) with the index of the next callback. -/
inductive How | resume | kill | fatal
  deriving DecidableEq, Repr

inductive Frame
  | running (t : Nat)
  | finishing (t : Nat) (next : Nat) (how : How)
  deriving DecidableEq, Repr

/-- Observations, recorded for stating properties; nothing in the model reads them. -/
inductive Obs
  | start (t : Nat)                       -- the task was queued for its first run
  | suspend (t : Nat) (g : Trig)          -- the task's coroutine yielded trigger `g`
  | suspendBad (t : Nat)                  -- the task's coroutine yielded a non-trigger
  | resume (t : Nat) (e : Option Exc)     -- the task's coroutine was continued
  | done (t : Nat) (s : TState) (o : Outcome)
  | regCb (t : Nat) (c : Nat)             -- done callback `c` was registered with `t`
  | doneCb (t : Nat) (c : Nat)            -- done callback `c` of `t` was called
  | setE (e : Nat) | clearE (e : Nat)
  | fire (n : Nat)                        -- the simulator fired GPI trigger `n`
  | req (l n : Nat) | drop (l n : Nat) | grant (l n : Nat) | rel (l : Nat)
  deriving DecidableEq, Repr

structure World where
  task : Nat → TaskRec := fun _ => {}
  /-- `Trigger._callbacks`, in insertion order: (handle, task whose `_schedule_resume` it is). -/
  cbs : Trig → List (Nat × Nat) := fun _ => []
  /-- Whether the simulator callback of GPI trigger `n` is armed. -/
  primed : Nat → Bool := fun _ => false
  /-- `Event._fired` -/
  fired : Nat → Bool := fun _ => false
  lock : Nat → LockRec := fun _ => {}
  /-- `EventLoop._callbacks` -/
  queue : List Entry := []
  nEntry : Nat := 0
  nHandle : Nat := 0
  nCb : Nat := 0
  stack : List Frame := []
  /-- `_current_task` -/
  current : Option Nat := none
  /-- Python has control (the simulator called in and the event loop has not returned). -/
  inside : Bool := false
  /-- A fatal exception left a task. -/
  halted : Bool := false
  log : List Obs := []

/-- `Task.done()`, task.py 638-644. -/
def TState.isDone : TState → Bool
  | .finished | .errored | .cancelled => true
  | _ => false

def World.addLog (w : World) (o : Obs) : World := { w with log := w.log ++ [o] }

def World.setTask (w : World) (t : Nat) (r : TaskRec) : World :=
  { w with task := upd w.task t r }

def World.setLock (w : World) (l : Nat) (r : LockRec) : World :=
  { w with lock := upd w.lock l r }

/-- `_schedule_resume`, task.py 321-324, with `EventLoop.schedule`, _event_loop.py 66-71. -/
def scheduleResume (w : World) (t : Nat) (e : Option Exc) : World :=
  { w with
    task := upd w.task t { w.task t with state := .scheduled, exc := e, scb := some w.nEntry }
    queue := w.queue ++ [⟨w.nEntry, t, false⟩]
    nEntry := w.nEntry + 1 }

/-- The scheduling part of `_start_next`, task.py 300-303, with `schedule_left`,
_event_loop.py 73-78. -/
def scheduleLeft (w : World) (t : Nat) : World :=
  { w with
    task := upd w.task t { w.task t with state := .scheduled, exc := none, scb := some w.nEntry }
    queue := ⟨w.nEntry, t, false⟩ :: w.queue
    nEntry := w.nEntry + 1 }

/-- `ScheduledCallback.cancel`, _event_loop.py 28-29. -/
def cancelEntry (w : World) (i : Option Nat) : World :=
  { w with queue := w.queue.map fun e => if some e.id = i then { e with cancelled := true } else e }

/-- The loop of `_do_callbacks`, _base_triggers.py 85-88, over the taken-out callbacks.
Every registered callback is some task's `_schedule_resume` (task.py 444). -/
def wakeAll : World → List (Nat × Nat) → World
  | w, [] => w
  | w, (_, t) :: rest => wakeAll (scheduleResume w t none) rest

/-- `Trigger._do_callbacks`/`_react`, _base_triggers.py 83-98. -/
def react (w : World) (g : Trig) : World :=
  wakeAll { w with cbs := upd w.cbs g [] } (w.cbs g)

/-- `Lock._acquire_and_fire`, _base_triggers.py 403-405. -/
def acquireAndFire (w : World) (l n : Nat) : World :=
  react ((w.setLock l { w.lock l with current := some n }).addLog (.grant l n)) (.lock l n)

/-- `Lock._prime_lock`, _base_triggers.py 407-411. -/
def primeLock (w : World) (l n : Nat) : World :=
  if (w.lock l).current = none then acquireAndFire w l n
  else w.setLock l { w.lock l with pending := (w.lock l).pending ++ [n] }

/-- `Lock._unprime_lock`, _base_triggers.py 413-415. -/
def unprimeLock (w : World) (l n : Nat) : World :=
  if n ∈ (w.lock l).pending then
    (w.setLock l { w.lock l with pending := (w.lock l).pending.erase n }).addLog (.drop l n)
  else w

/-- `Trigger._prime` of each class. `fails` is the simulator's choice whether arming the
callback of a GPI trigger fails (`_cbhdl is None` → `RuntimeError`, _gpi_triggers.py 157-160).
`none` means `_prime` raised. -/
def prime (w : World) (g : Trig) (fails : Bool) : Option World :=
  match g with
  | .gpi n => if fails then none else some { w with primed := upd w.primed n true }
  -- _base_triggers.py 129-133
  | .event e => some (if w.fired e then react w g else w)
  -- _base_triggers.py 529
  | .null _ => some (react w g)
  -- task.py 759-761
  | .complete t => some (if (w.task t).state.isDone then react w g else w)
  | .join t => some (if (w.task t).state.isDone then react w g else w)
  -- _base_triggers.py 407-411
  | .lock l n => some (primeLock (w.addLog (.req l n)) l n)

/-- `Trigger._unprime` of each class; `none` is the `AssertionError` of _gpi_triggers.py 52. -/
def unprime (w : World) (g : Trig) : Option World :=
  match g with
  | .gpi n => if w.primed n then some { w with primed := upd w.primed n false } else none
  -- _base_triggers.py 413-415
  | .lock l n => some (unprimeLock w l n)
  | _ => some w

/-- `Trigger._register(task._schedule_resume)`, _base_triggers.py 61-73, together with the
assignment of the handle to `_trigger_callback` and the `except` clause of task.py 443-447. -/
def register (w : World) (g : Trig) (t : Nat) (fails : Bool) : World :=
  let h := w.nHandle
  let doPrime := (w.cbs g).isEmpty
  let w1 := { w with
    cbs := upd w.cbs g (w.cbs g ++ [(h, t)])
    nHandle := h + 1
    task := upd w.task t { w.task t with tcb := some (g, h) } }
  if doPrime then
    match prime w1 g fails with
    | some w2 => w2
    | none => scheduleResume w1 t (some .primeError)
  else w1

/-- `Trigger._deregister`, _base_triggers.py 75-81; `none` is the `KeyError` of line 79 or the
`AssertionError` of `_unprime`. -/
def deregister (w : World) (cb : Option (Trig × Nat)) : Option World :=
  match cb with
  | none => none
  | some (g, h) =>
    if (w.cbs g).any (·.1 == h) then
      let w1 := { w with cbs := upd w.cbs g ((w.cbs g).filter (·.1 != h)) }
      if (w1.cbs g).isEmpty then unprime w1 g else some w1
    else none

/-- Beginning of `_set_outcome`, task.py 310-311; the done-callback loop becomes a frame. -/
def setOutcome (w : World) (t : Nat) (s : TState) (o : Outcome) (how : How) : World :=
  { w with
    task := upd w.task t { w.task t with state := s, outcome := some o }
    stack := .finishing t 0 how :: w.stack
    log := w.log ++ [.done t s o] }

/-- Beginning of `_resume`, task.py 341-351: the coroutine of `t` is entered. -/
def resume (w : World) (t : Nat) : World :=
  { w with
    task := upd w.task t { w.task t with state := .running }
    stack := .running t :: w.stack
    current := some t
    log := w.log ++ [.resume t (w.task t).exc] }

/-- API actions and scheduler steps. -/
inductive Act
  /-- The simulator calls into Python other than by a GPI trigger (e.g. to start a test). -/
  | enter
  /-- The simulator fires armed GPI trigger `n`: `GPITrigger._react`, _gpi_triggers.py 40-49. -/
  | fire (n : Nat)
  /-- One iteration of the inner loop of `EventLoop.run`, _event_loop.py 47-55. -/
  | pop
  /-- `EventLoop.run` returns to the simulator, _event_loop.py 46. -/
  | exit
  | startSoon (t : Nat) | startNext (t : Nat)
  | cancel (t : Nat) | kill (t : Nat) | cancelNow (t : Nat) | uncancel (t : Nat)
  | addCb (t : Nat)
  | setE (e : Nat) | clearE (e : Nat)
  | release (l : Nat)
  /-- The running coroutine awaits trigger `g`. -/
  | await (g : Trig) (fails : Bool)
  | yieldBad
  | ret (v : Nat) | raise (e : Exc)
  /-- Next step of the done-callback loop of the innermost `_set_outcome`. -/
  | cbStep
  deriving DecidableEq, Repr

/-- What the caller of an API function sees. `raised` is an exception raised to it. -/
inductive Res
  | ok | bool (b : Bool)
  | raisedRuntime      -- documented `RuntimeError`
  | raisedInternal     -- `KeyError`/`AssertionError`/`AttributeError` from inside the scheduler
  deriving DecidableEq, Repr

/-- The branch of `kill`/`_cancel_now` that stops the task from being resumed
(task.py 462-470 and 592-600). `none` is an internal error. -/
def detach (w : World) (t : Nat) : Option World :=
  match (w.task t).state with
  | .pending => deregister w (w.task t).tcb
  | .scheduled => some (cancelEntry w (w.task t).scb)
  | _ => some w

/-- `Task._start_soon`, task.py 270-283. -/
def startSoon (w : World) (t : Nat) : World × Res :=
  if (w.task t).state ≠ .unstarted then (w, .raisedRuntime)
  else ((scheduleResume w t none).addLog (.start t), .ok)

/-- `Task._start_next`, task.py 285-303. -/
def startNext (w : World) (t : Nat) : World × Res :=
  if (w.task t).state ≠ .unstarted then (w, .raisedRuntime)
  else ((scheduleLeft w t).addLog (.start t), .ok)

/-- `self._must_cancel += 1`, task.py 582 and 614. -/
def bumpCancel (w : World) (t : Nat) : World :=
  w.setTask t { w.task t with mustCancel := (w.task t).mustCancel + 1 }

/-- `Task.cancel`, task.py 543-584. -/
def cancel (w : World) (t : Nat) : World × Res :=
  if (w.task t).state.isDone then (w, .bool false)
  else if (w.task t).state = .running then (w, .raisedRuntime)
  else if (w.task t).state = .pending then
    match deregister w (w.task t).tcb with
    | none => (w, .raisedInternal)
    | some w1 => (bumpCancel (scheduleResume w1 t (some .cancelled)) t, .bool true)
  else if (w.task t).state = .scheduled then
    (bumpCancel (w.setTask t { w.task t with exc := some .cancelled }) t, .bool true)
  else ((bumpCancel (scheduleResume w t (some .cancelled)) t).addLog (.start t), .bool true)

/-- `Task.kill`, task.py 454-490. -/
def kill (w : World) (t : Nat) : World × Res :=
  if (w.task t).state.isDone then (w, .ok)
  else if (w.task t).state = .running then (w, .raisedRuntime)
  else match detach w t with
    | none => (w, .raisedInternal)
    | some w1 => (setOutcome w1 t .finished .noneKilled .kill, .ok)

/-- `Task._cancel_now`, task.py 586-620. -/
def cancelNow (w : World) (t : Nat) : World × Res :=
  if (w.task t).state.isDone then (w, .bool false)
  else if (w.task t).state = .running then (w, .raisedRuntime)
  else match detach (if (w.task t).state = .unstarted then w.addLog (.start t) else w) t with
    | none => (w, .raisedInternal)
    | some w1 =>
      let w2 := bumpCancel w1 t
      (resume (w2.setTask t { w2.task t with exc := some .cancelled }) t, .bool true)

/-- `Task._uncancel`, task.py 622-628. -/
def uncancel (w : World) (t : Nat) : World :=
  w.setTask t { w.task t with mustCancel := (w.task t).mustCancel - 1 }

/-- `Task._add_done_callback`, task.py 682-693. The callback gets a fresh identity. -/
def addDoneCb (w : World) (t : Nat) : World :=
  let w0 := w.addLog (.regCb t w.nCb)
  let w1 := if (w.task t).state.isDone then w0.addLog (.doneCb t w.nCb) else w0
  { w1 with
    task := upd w1.task t { w1.task t with doneCbs := (w1.task t).doneCbs ++ [w1.nCb] }
    nCb := w1.nCb + 1 }

/-- What `Task.result()` and `Task.exception()` give. -/
inductive Query
  | returns (v : Nat) | returnsNone | returnsExc (e : Exc) | raises (e : Exc) | raisesInvalidState
  deriving DecidableEq, Repr

/-- `Task.done`, task.py 638-644. -/
def World.done (w : World) (t : Nat) : Bool := (w.task t).state.isDone

/-- `Task.cancelled`, task.py 634-636. -/
def World.cancelled (w : World) (t : Nat) : Bool := decide ((w.task t).state = .cancelled)

/-- `raise self._outcome` / `return self._outcome` as used below; a missing outcome would be
`None`. -/
def raiseOutcome : Option Outcome → Query
  | some (.exc e) => .raises e
  | _ => .raises .typeError

/-- `Task.result`, task.py 646-662. -/
def World.result (w : World) (t : Nat) : Query :=
  if (w.task t).state = .cancelled then raiseOutcome (w.task t).outcome
  else if (w.task t).state = .finished then
    match (w.task t).outcome with
    | some (.value v) => .returns v
    | some .noneKilled => .returnsNone
    | some (.exc e) => .returnsExc e
    | none => .returnsNone
  else if (w.task t).state = .errored then raiseOutcome (w.task t).outcome
  else .raisesInvalidState

/-- `Task.exception`, task.py 664-680. -/
def World.exception (w : World) (t : Nat) : Query :=
  if (w.task t).state = .cancelled then raiseOutcome (w.task t).outcome
  else if (w.task t).state = .finished then .returnsNone
  else if (w.task t).state = .errored then
    match (w.task t).outcome with
    | some (.value v) => .returns v
    | some (.exc e) => .returnsExc e
    | _ => .returnsNone
  else .raisesInvalidState

/-- `Event.set`, _base_triggers.py 218-228. -/
def setEvent (w : World) (e : Nat) : World :=
  react ({ w with fired := upd w.fired e true }.addLog (.setE e)) (.event e)

/-- `Event.clear`, _base_triggers.py 241-247. -/
def clearEvent (w : World) (e : Nat) : World :=
  { w with fired := upd w.fired e false }.addLog (.clearE e)

/-- `Lock.release`, _base_triggers.py 424-436. -/
def release (w : World) (l : Nat) : World × Res :=
  if (w.lock l).current = none then (w, .raisedRuntime)
  else
    let w1 := (w.setLock l { w.lock l with current := none }).addLog (.rel l)
    match (w.lock l).pending with
    | [] => (w1, .ok)
    | n :: ns => (acquireAndFire (w1.setLock l { w1.lock l with pending := ns }) l n, .ok)

/-- The condition under which `__await__` itself raises `RuntimeError`: `_Lock.__await__`,
_base_triggers.py 320-325, with `Lock._is_used` 417-418. -/
def awaitRefused (w : World) : Trig → Bool
  | .lock l n => decide ((w.lock l).current = some n) || decide (n ∈ (w.lock l).pending)
  | _ => false

/-- The coroutine of `t` gave back control by yielding trigger `g`, task.py 408-449. -/
def suspendOn (w : World) (t : Nat) (g : Trig) (fails : Bool) : World :=
  if (w.task t).mustCancel > 0 then setOutcome w t .errored (.exc .runtimeError) .resume
  else
    { register ((w.setTask t { w.task t with state := .pending }).addLog (.suspend t g)) g t fails
      with current := none }

/-- The coroutine of `t` yielded something that is not a trigger, task.py 408-428. -/
def suspendBad (w : World) (t : Nat) : World :=
  if (w.task t).mustCancel > 0 then setOutcome w t .errored (.exc .runtimeError) .resume
  else { scheduleResume (w.addLog (.suspendBad t)) t (some .typeError) with current := none }

/-- The coroutine of `t` returned `v`, task.py 357-373. -/
def finishRet (w : World) (t v : Nat) : World :=
  if (w.task t).mustCancel > 0 then setOutcome w t .errored (.exc .runtimeError) .resume
  else setOutcome w t .finished (.value v) .resume

/-- The coroutine of `t` raised `e`, task.py 374-407. -/
def finishRaise (w : World) (t : Nat) (e : Exc) : World :=
  match e with
  | .fatal n => setOutcome w t .errored (.exc (.fatal n)) .fatal
  | .cancelled => setOutcome w t .cancelled (.exc .cancelled) .resume
  | e =>
    if (w.task t).mustCancel > 0 then setOutcome w t .errored (.exc .runtimeError) .resume
    else setOutcome w t .errored (.exc e) .resume

/-- End of `_set_outcome` (task.py 317-319) and, when it was called from `_resume`, of the
`finally` clause (451-452) and the re-raise of line 384. -/
def finishEnd (w : World) (t : Nat) (how : How) : World :=
  let w1 := react (react w (.complete t)) (.join t)
  match how with
  | .kill => w1
  | .resume => { w1 with current := none }
  | .fatal => { w1 with current := none, halted := true }

/-- One step of the loop over `_done_callbacks`, task.py 314-315. The list is iterated in place,
so callbacks appended meanwhile are reached too. -/
def cbStep (w : World) (t i : Nat) (how : How) (rest : List Frame) : World :=
  match (w.task t).doneCbs[i]? with
  | some c => { w with stack := .finishing t (i + 1) how :: rest }.addLog (.doneCb t c)
  | none => finishEnd { w with stack := rest } t how

/-- Actions of the innermost executing code that give up control; `none` if there is none. -/
def execCoro (w : World) (t : Nat) (rest : List Frame) (a : Act) : Option (World × Res) :=
  match a with
  | .await g fails =>
    if awaitRefused w g then some (w, .raisedRuntime)
    else some (suspendOn { w with stack := rest } t g fails, .ok)
  | .yieldBad => some (suspendBad { w with stack := rest } t, .ok)
  | .ret v => some (finishRet { w with stack := rest } t v, .ok)
  | .raise e => some (finishRaise { w with stack := rest } t e, .ok)
  | _ => none

/-- One action. `none` if it is not possible in this state. -/
def exec (w : World) (a : Act) : Option (World × Res) :=
  if w.halted then none else
  match a, w.inside with
  | .enter, false => some ({ w with inside := true }, .ok)
  | .fire n, false =>
    if w.primed n then
      some (react ({ w with primed := upd w.primed n false, inside := true }.addLog (.fire n)) (.gpi n), .ok)
    else none
  | .pop, true =>
    match w.stack, w.queue with
    | [], e :: rest =>
      if e.cancelled then some ({ w with queue := rest }, .ok)
      else some (resume { w with queue := rest } e.task, .ok)
    | _, _ => none
  | .exit, true =>
    if w.stack = [] ∧ w.queue = [] then some ({ w with inside := false }, .ok) else none
  | .startSoon t, true => some (startSoon w t)
  | .startNext t, true => some (startNext w t)
  | .cancel t, true => some (cancel w t)
  | .kill t, true => some (kill w t)
  | .cancelNow t, true => some (cancelNow w t)
  | .uncancel t, true => some (uncancel w t, .ok)
  | .addCb t, true => some (addDoneCb w t, .ok)
  | .setE e, true => some (setEvent w e, .ok)
  | .clearE e, true => some (clearEvent w e, .ok)
  | .release l, true => some (release w l)
  | a, true =>
    match w.stack with
    | .running t :: rest => execCoro w t rest a
    | .finishing t i how :: rest =>
      if a = .cbStep then some (cbStep w t i how rest, .ok) else none
    | [] => none
  | _, false => none

/-- Run a list of actions; `none` if one of them is not possible when its turn comes. -/
def run : World → List Act → Option World
  | w, [] => some w
  | w, a :: as => match exec w a with
    | some (w', _) => run w' as
    | none => none

/-- The state before anything happened. -/
def init : World := {}

/-- States reached by some schedule of some programs. -/
def Reach (w : World) : Prop := ∃ as, run init as = some w

/-- The actions in which no simulator callback fails to arm. -/
def Act.noFail : Act → Bool
  | .await _ fails => !fails
  | _ => true

/-- States reached without the simulator ever failing to arm a callback. -/
def ReachOk (w : World) : Prop := ∃ as, (∀ a ∈ as, a.noFail = true) ∧ run init as = some w

/-- No code runs between the end of a task and its first done callback (task.py 310-315). The
scheduler model does allow API actions there; the models of constructs built on it exclude them with
this condition. -/
def quiet (w : World) : Bool :=
  match w.stack with
  | .finishing _ 0 _ :: _ => false
  | _ => true

/-- No task is running: when `_cancel_now` may be used, task.py 589-590. -/
def nobodyRuns (w : World) : Bool :=
  w.stack.all fun | .running _ => false | _ => true

/-- An API call made by code that does not look at the result. -/
def api (w : World) (a : Act) : World :=
  match exec w a with
  | some (w', _) => w'
  | none => w

end Verif.Sched
