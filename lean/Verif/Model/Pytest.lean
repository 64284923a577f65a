/-!
# The regression manager for pytest (cocotb_tools/_pytest/_regression.py)

Inside the simulator pytest cannot use its own loop: tests, fixtures and their teardown are coroutines that end only when
simulation time has passed. The manager therefore runs pytest's protocol in pieces: the synchronous part of a phase (setup,
call, teardown) collects the coroutines of that phase, which are then started one after another, each from the callback
of the one before.

pytest is not modelled; what its hooks do is given as data. An item is a list of the fixtures pytest sets up for it, in
pytest's order, and the body. Every piece of code, synchronous or a coroutine, is a `Step`: its identity, the outcome of
the report made from it (an expected failure is `skipped`, as in pytest), and how many random numbers it draws. Fixtures
that were set up for an earlier item and are still alive (wider scopes) are not set up again; when pytest tears a fixture
down is given with the fixture.

Every call of a hook may raise (`Cfg.raises`), and every piece of code may leave with `Exit` or `KeyboardInterrupt`, which
the manager does not turn into a report (`Cfg.exits`).

Left out: logging, report contents other than phase and outcome, sending reports to the parent process, debugger
support, the timeout marker (a timeout is an outcome of the step), the timer of one step before each coroutine but the
first, and exceptions raised by a hook after the manager's own implementation has started a coroutine.
-/
namespace Verif.Pytest

/-- The outcome of a report. -/
inductive Outcome where
  | passed
  | failed
  | skipped
  deriving DecidableEq, Repr

/-- A test phase. _regression.py:63. -/
inductive When where
  | setup
  | call
  | teardown
  deriving DecidableEq, Repr

/-- A piece of the user's code: the synchronous part of a fixture, or the coroutine of a `TestManager`. -/
structure Step where
  /-- Which one. -/
  id : Nat
  /-- The outcome of the report made when it ends. -/
  outcome : Outcome
  /-- How many random numbers it draws. -/
  draws : Nat
  deriving DecidableEq, Repr

/-- A task started with `cocotb.start_soon` by the setup of an asynchronous fixture, at the time the fixture is torn
down. -/
inductive Sub where
  /-- Still running. -/
  | alive
  /-- It was cancelled. -/
  | cancelled
  /-- It returned or raised. -/
  | finished
  deriving DecidableEq, Repr

/-- A fixture pytest sets up for an item. -/
inductive Fixture where
  /-- A plain function, with the code after its `yield` if it has one. -/
  | sync (setup : Step) (teardown : Option Step) (till : Nat)
  /-- A coroutine function. -/
  | afun (setup : Step)
  /-- An asynchronous generator: the code up to its `yield`, the tasks started there, the code after it. -/
  | agen (setup : Step) (subs : List Sub) (teardown : Step) (till : Nat)
  deriving DecidableEq, Repr

/-- A collected test. `till` of a fixture is the number of the item at whose end pytest tears it down. -/
structure Item where
  /-- The hash of the node id. -/
  nodeid : Nat
  /-- The fixtures pytest sets up for it. -/
  fixtures : List Fixture
  /-- What `pytest_runtest_call` makes of the call if the test function is not reached. -/
  callHook : Outcome
  /-- The test function, if it is reached. -/
  body : Option Step
  deriving DecidableEq, Repr

/-- The state of the random number generator: the seed it was last given (`none`: when the process started) and how many
numbers have been drawn since. -/
structure Rng where
  seed : Option Nat
  drawn : Nat
  deriving DecidableEq, Repr

/-- What an observer (a pytest plugin, or the user's code) sees. Items are numbered in order. -/
inductive Event where
  /-- `pytest_sessionstart`. -/
  | sessionstart
  /-- `pytest_collection`. -/
  | collection
  /-- `pytest_runtest_logstart`. -/
  | start (item : Nat)
  /-- A piece of code starts, with the random number generator in this state. -/
  | code (item : Nat) (when : When) (step : Step) (rng : Rng)
  /-- `pytest_runtest_logreport`. -/
  | report (item : Nat) (when : When) (outcome : Outcome)
  /-- `pytest_runtest_logfinish`. -/
  | finish (item : Nat)
  /-- `pytest_sessionfinish`, with an error status or not. -/
  | sessionfinish (error : Bool)
  /-- `pytest_unconfigure`. -/
  | unconfigure
  /-- The simulator is asked to stop. -/
  | shutdown
  deriving DecidableEq, Repr

/-- Everything decided outside the manager. -/
structure Cfg where
  /-- `COCOTB_RANDOM_SEED`. -/
  seed : Nat
  /-- The hook called for this event raises. -/
  raises : Event → Bool
  /-- The code with this identity leaves with `Exit` or `KeyboardInterrupt`. -/
  exits : Nat → Bool
  /-- There were errors during collection (and `--continue-on-collection-errors` was not given). -/
  collectErrors : Bool
  /-- `--collect-only`. -/
  collectOnly : Bool

/-- A finalizer registered with pytest. -/
structure Fin where
  /-- The setup step of its fixture. -/
  key : Nat
  /-- The item at whose end it is due. -/
  till : Nat
  /-- The finalizer of a generator fixture is registered when the setup has reached the `yield`. -/
  armed : Bool
  /-- It belongs to an asynchronous generator. -/
  async : Bool
  /-- The tasks started by the setup. -/
  subs : List Sub
  /-- The code to run. -/
  step : Step
  deriving DecidableEq, Repr

/-- The state of the manager. -/
structure State where
  /-- `_session.items[_index:]`: the current item first. -/
  items : List Item
  /-- `_index`. -/
  index : Nat
  /-- `_setups`. -/
  setups : List Step
  /-- `_teardowns`. -/
  teardowns : List Step
  /-- `_running_test`, with the phase of its callback; `none` when it has completed. -/
  running : Option (When × Step)
  /-- Registered finalizers, the latest first. -/
  live : List Fin
  /-- `random`'s state. -/
  rng : Rng
  /-- `_random_state`. -/
  saved : Rng
  /-- `_finished`. -/
  finished : Bool
  /-- `_session.exitstatus` is `INTERNAL_ERROR`. -/
  error : Bool
  /-- Everything observed so far. -/
  trace : List Event

/-- A call of a Python function: the state after it, and the result; `none` if it raised. -/
structure R (α : Type) where
  st : State
  val : Option α

/-- Sequencing. -/
def R.bind {α β : Type} (r : R α) (f : α → State → R β) : R β :=
  match r.val with
  | none => ⟨r.st, none⟩
  | some a => f a r.st

/-- A call of a hook for this event. -/
def emit (c : Cfg) (e : Event) (s : State) : R Unit :=
  ⟨{ s with trace := s.trace ++ [e] }, if c.raises e then none else some ()⟩

/-- A piece of code runs; the numbers it draws are accounted for at once. -/
def runCode (w : When) (st : Step) (s : State) : State :=
  { s with
    trace := s.trace ++ [.code s.index w st s.rng],
    rng := { s.rng with drawn := s.rng.drawn + st.draws } }

/-- The synchronous part of the setup phase after the manager's own hook: pytest sets the fixtures up in order and stops
at the first that fails. `pytest_fixture_setup` turns a coroutine function or an asynchronous generator into a
`TestManager` that waits in `_setups`. A generator's finalizer takes its place in pytest's order here and is armed by
`_add_teardown`. _regression.py:554-598. -/
def setupFixtures (c : Cfg) : List Fixture → State → R Outcome
  | [], s => ⟨s, some .passed⟩
  | .sync st td till :: fs, s =>
    let s := runCode .setup st s
    if c.exits st.id then ⟨s, none⟩
    else if st.outcome = .passed then
      match td with
      | none => setupFixtures c fs s
      | some td => setupFixtures c fs { s with live := ⟨st.id, till, true, false, [], td⟩ :: s.live }
    else ⟨s, some st.outcome⟩
  | .afun st :: fs, s => setupFixtures c fs { s with setups := s.setups ++ [st] }
  | .agen st subs td till :: fs, s =>
    setupFixtures c fs
      { s with
        setups := s.setups ++ [st],
        live := ⟨st.id, till, false, true, subs, td⟩ :: s.live }

/-- `pytest_runtest_setup`: seed the generator for the item, then set up its fixtures.
_regression.py:507-528. -/
def setupHook (c : Cfg) (it : Item) (s : State) : R Outcome :=
  setupFixtures c it.fixtures { s with saved := s.rng, rng := ⟨some (c.seed + it.nodeid), 0⟩ }

/-- pytest runs all the finalizers that are due even if some raise, and then raises what was raised: nothing, the only
exception, or a group of them. -/
def combine (os : List Outcome) : Outcome :=
  match os.filter (· ≠ .passed) with
  | [] => .passed
  | [o] => o
  | _ => .failed

/-- `finalizer` of an asynchronous generator: tasks of the setup that are not cancelled are added to the manager of the
teardown; `TestManager.add_task` raises `KeyError` for one that is done, as its done callback is called at once and
removes the task before it was entered. Otherwise the teardown waits in `_teardowns`.
_regression.py:798-805, cocotb/_test_manager.py:163-171, cocotb/task.py:682-693. -/
def finalizer (f : Fin) (s : State) : State × Outcome :=
  if Sub.finished ∈ f.subs then (s, .failed)
  else ({ s with teardowns := s.teardowns ++ [f.step] }, .passed)

/-- The finalizers that are due run in order. -/
def runFinalizers (c : Cfg) : List Fin → List Outcome → State → R Outcome
  | [], os, s => ⟨s, some (combine os)⟩
  | f :: fs, os, s =>
    if !f.armed then runFinalizers c fs os s
    else if f.async then
      let r := finalizer f s
      runFinalizers c fs (os ++ [r.2]) r.1
    else
      let s := runCode .teardown f.step s
      if c.exits f.step.id then ⟨s, none⟩ else runFinalizers c fs (os ++ [f.step.outcome]) s

/-- A finalizer is due at the end of this item. At the end of the last item all are. -/
def due (s : State) (f : Fin) : Bool := decide (f.till ≤ s.index) || s.items.tail.isEmpty

/-- `pytest_runtest_teardown`: give the generator its old state back, then pytest runs the finalizers that are due.
_regression.py:539-552. -/
def teardownHook (c : Cfg) (s : State) : R Outcome :=
  runFinalizers c (s.live.filter (due s)) []
    { s with rng := s.saved, live := s.live.filter (fun f => !due s f) }

/-- `_finish`. _regression.py:493-505. -/
def finishSession (c : Cfg) (s : State) : R Unit :=
  if s.finished then ⟨s, some ()⟩
  else
    (emit c (.sessionfinish s.error) { s with finished := true }).bind fun _ s =>
    (emit c .unconfigure s).bind fun _ s =>
    emit c .shutdown s

/-- `_start`: the manager runs; its callback is called when it is done. _regression.py:866-878. -/
def start (w : When) (st : Step) (s : State) : State :=
  { runCode w st s with running := some (w, st) }

/-- `_teardown` once there is a report: if a teardown waits, start it (the report is dropped); otherwise log the report and
go on with what comes next. _regression.py:468-479. -/
def teardownCont (c : Cfg) (next : State → R Unit) (o : Outcome) (s : State) : R Unit :=
  match s.teardowns with
  | t :: ts => ⟨start .teardown t { s with teardowns := ts }, some ()⟩
  | [] =>
    (emit c (.report s.index .teardown o) s).bind fun _ s =>
    (emit c (.finish s.index) s).bind fun _ s =>
    next s

/-- `_teardown` without a report. _regression.py:462-466. -/
def teardownStart (c : Cfg) (next : State → R Unit) (s : State) : R Unit :=
  (teardownHook c { s with teardowns := [] }).bind fun o s => teardownCont c next o s

/-- `_setup` once there is a report: a failed one is logged and the teardown starts; otherwise the next waiting setup is
started; when there is none, the report is logged and the call phase starts. _regression.py:413-431. -/
def setupCont (c : Cfg) (it : Item) (next : State → R Unit) (o : Outcome) (s : State) : R Unit :=
  if o ≠ .passed then
    (emit c (.report s.index .setup o) s).bind fun _ s => teardownStart c next s
  else
    match s.setups with
    | j :: js => ⟨start .setup j { s with setups := js }, some ()⟩
    | [] =>
      (emit c (.report s.index .setup o) s).bind fun _ s =>
      match it.body with
      | some b => ⟨start .call b s, some ()⟩
      | none =>
        (emit c (.report s.index .call it.callHook) s).bind fun _ s =>
        teardownStart c next s

/-- What follows the end of an item: `pytest_runtest_protocol` for the next one (logstart and `_setup` without a report), or
the end of the session. _regression.py:475-479, 285-296, 409-411. -/
def advance (c : Cfg) : List Item → State → R Unit
  | [], s => finishSession c s
  | it :: rest, s =>
    let s := { s with items := it :: rest, index := s.index + 1 }
    (emit c (.start s.index) s).bind fun _ s =>
    (setupHook c it { s with setups := [] }).bind fun o s =>
    setupCont c it (advance c rest) o s

/-- `finish_on_exception`. _regression.py:71-83, 489-491. -/
def finishOnException (c : Cfg) (r : R Unit) : State :=
  match r.val with
  | some _ => r.st
  | none => (finishSession c { r.st with error := true }).st

/-- `_add_teardown`, called by the setup of a generator when it has reached its `yield`.
_regression.py:619-620, 769-807. -/
def arm (key : Nat) (live : List Fin) : List Fin :=
  live.map fun f => if f.key = key then { f with armed := true } else f

/-- `_completed`: the report of the manager that is done. _regression.py:374-388. -/
def completed (c : Cfg) (w : When) (st : Step) (s : State) : R Outcome :=
  let s := { s with
    running := none,
    live := if w = .setup ∧ st.outcome = .passed then arm st.id s.live else s.live }
  ⟨s, if c.exits st.id then none else some st.outcome⟩

/-- The manager that runs is done: `_setup_completed`, `_call_completed` or `_teardown_completed`.
_regression.py:390-397, 433-450. -/
def onDone (c : Cfg) (s : State) : State :=
  match s.running, s.items with
  | some (.setup, st), it :: rest =>
    finishOnException c <| (completed c .setup st s).bind fun o s => setupCont c it (advance c rest) o s
  | some (.call, st), _ :: rest =>
    finishOnException c <| (completed c .call st s).bind fun o s =>
      (emit c (.report s.index .call o) s).bind fun _ s => teardownStart c (advance c rest) s
  | some (.teardown, st), _ :: rest =>
    finishOnException c <| (completed c .teardown st s).bind fun o s => teardownCont c (advance c rest) o s
  | _, _ => s

/-- A new manager. `_index` is one less than the first item's number. _regression.py:120-160. -/
def init : State :=
  { items := [], index := 0, setups := [], teardowns := [], running := none, live := [], rng := ⟨none, 0⟩,
    saved := ⟨none, 0⟩, finished := false, error := false, trace := [] }

/-- `pytest_runtestloop`. _regression.py:267-283. -/
def runtestloop (c : Cfg) (items : List Item) (s : State) : R Unit :=
  if c.collectErrors then ⟨s, none⟩
  else if c.collectOnly then finishSession c s
  else advance c items s

/-- `start_regression`. _regression.py:213-218. -/
def startRegression (c : Cfg) (items : List Item) : State :=
  finishOnException c <|
    (emit c .sessionstart init).bind fun _ s =>
    (emit c .collection s).bind fun _ s =>
    runtestloop c items s

/-- What happens to the manager. -/
inductive Input where
  /-- The coroutine that runs completes. -/
  | done
  /-- The simulator ends. -/
  | simEnd
  deriving DecidableEq, Repr

/-- Inputs from a state. `_on_sim_end` exists (_regression.py:854-864) but is not registered with `cocotb._shutdown`, so the
end of the simulation reaches nobody; nothing runs after it. -/
def play (c : Cfg) : List Input → State → State
  | [], s => s
  | .done :: ins, s => play c ins (onDone c s)
  | .simEnd :: _, s => s

/-- A session. -/
def run (c : Cfg) (items : List Item) (ins : List Input) : State := play c ins (startRegression c items)

end Verif.Pytest
