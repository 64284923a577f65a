/-!
# Values of fixtures, reports and captured log messages under pytest

Three parts of the plugin for pytest that `Model/Pytest` leaves out:

* which values fixtures and tests get for the fixtures they request (cocotb_tools/_pytest/_fixture.py, and
  `pytest_fixture_setup` and `pytest_pyfunc_call` in _regression.py);
* how test reports reach the main process (_regression.py, _controller.py);
* which log messages of a phase are part of its report (_regression.py).

pytest itself is modelled as far as it matters here, from its documentation: `FixtureDef.execute` with its cached result, the
arguments of a test that are looked up when the test is set up, and the context manager `catching_logs`.
-/
namespace Verif.PytestFix

/-! ## Values of fixtures -/

/-- A Python value: one of the user's, or the `TestManager` that runs the fixture with this number. -/
inductive Val where
  | user (n : Nat)
  | manager (fixture : Nat)
  deriving DecidableEq, Repr

/-- Exceptions: the user's, `InvalidStateError` of `Task.result`, and that of pytest for a fixture it does not know. -/
inductive Exc where
  | user (n : Nat)
  | invalidState
  | lookup
  deriving DecidableEq, Repr

/-- What a call ends with. -/
abbrev Res := Except Exc Val

/-- A fixture. The code is a function of the arguments; the code after a `yield` does not matter here. -/
structure Fixture where
  /-- A coroutine function or an asynchronous generator. -/
  async : Bool
  /-- The scope is wider than a test. -/
  wide : Bool
  /-- The fixtures it requests. -/
  args : List Nat
  code : List Val → Res

/-- `FixtureDef.cached_result`. _fixture.py:15-37, _regression.py:593-594. -/
inductive Cached where
  /-- The tuple made by pytest for a fixture that is no coroutine. -/
  | plain (r : Res)
  /-- `AsyncFixtureCachedResult` with its task: not done, or done with this result. -/
  | task (r : Option Res)

/-- A test: the fixtures pytest sets up for it, in pytest's order, and those that are its arguments. -/
structure Test where
  fixtures : List Nat
  args : List Nat

/-- A call of the user's code. -/
inductive Call where
  /-- Of the fixture with this number. -/
  | fixture (n : Nat) (args : List Val)
  /-- Of the test with this number. -/
  | test (n : Nat) (args : List Val)
  deriving DecidableEq, Repr

/-- The cached results, and the calls so far. -/
structure St where
  cache : Nat → Option Cached
  calls : List Call

/-- Item 0 of a cached result, or what item 2 says was raised: `AsyncFixtureCachedResult.__getitem__` gives the manager
until its task is done, then the task's result. _fixture.py:39-54. -/
def Cached.value (n : Nat) : Cached → Res
  | .plain r => r
  | .task none => .ok (.manager n)
  | .task (some r) => r

/-- `request.getfixturevalue` for a fixture that was set up before. -/
def getValue (s : St) (n : Nat) : Res :=
  match s.cache n with
  | none => .error .lookup
  | some c => c.value n

/-- `resolve_fixture_arg`: the result of the main task of a manager, else the value. A fixture is assumed not to return a
manager. _fixture.py:57-59, cocotb/task.py (`Task.result`). -/
def resolve (s : St) : Val → Res
  | .user n => .ok (.user n)
  | .manager n =>
    match s.cache n with
    | some (.task (some r)) => r
    | _ => .error .invalidState

/-- All the values, or the first exception. -/
def getAll {α : Type} (f : α → Res) : List α → Except Exc (List Val)
  | [] => .ok []
  | n :: ns =>
    match f n with
    | .error e => .error e
    | .ok v =>
      match getAll f ns with
      | .error e => .error e
      | .ok vs => .ok (v :: vs)

/-- An argument of a coroutine of the plugin: look it up, resolve it. _regression.py:609-612, 634-637. -/
def getResolved (s : St) (n : Nat) : Res :=
  match getValue s n with
  | .error e => .error e
  | .ok v => resolve s v

/-- An entry of the cache is set. -/
def St.set (s : St) (n : Nat) (c : Cached) : St :=
  { s with cache := fun m => if m = n then some c else s.cache m }

/-- `FixtureDef.execute`: use the cached result, or else call `pytest_fixture_setup`, which calls a plain function at once
and makes a manager of a coroutine that waits in `_setups`. The state, the waiting setups, and whether it raised.
_regression.py:554-598. -/
def execute (F : Nat → Fixture) (n : Nat) (s : St) (waiting : List Nat) : St × List Nat × Bool :=
  match s.cache n with
  | some c =>
    match c.value n with
    | .ok _ => (s, waiting, true)
    | .error _ => (s, waiting, false)
  | none =>
    if (F n).async then (s.set n (.task none), waiting ++ [n], true)
    else
      match getAll (getValue s) (F n).args with
      | .error e => (s.set n (.plain (.error e)), waiting, false)
      | .ok vs =>
        let r := (F n).code vs
        (({ s with calls := s.calls ++ [.fixture n vs] } : St).set n (.plain r), waiting,
          match r with | .ok _ => true | .error _ => false)

/-- The synchronous part of a setup: the fixtures in order, up to the first that raises. -/
def executeAll (F : Nat → Fixture) : List Nat → St → List Nat → St × List Nat × Bool
  | [], s, w => (s, w, true)
  | n :: ns, s, w =>
    match execute F n s w with
    | (s, w, true) => executeAll F ns s w
    | (s, w, false) => (s, w, false)

/-- The coroutine of a waiting setup: look its arguments up and call the fixture. _regression.py:600-641. -/
def runSetup (F : Nat → Fixture) (n : Nat) (s : St) : St × Bool :=
  match getAll (getResolved s) (F n).args with
  | .error e => (s.set n (.task (some (.error e))), false)
  | .ok vs =>
    let r := (F n).code vs
    (({ s with calls := s.calls ++ [.fixture n vs] } : St).set n (.task (some r)),
      match r with | .ok _ => true | .error _ => false)

/-- The waiting setups in order, up to the first that fails. _regression.py:413-420. -/
def runSetups (F : Nat → Fixture) : List Nat → St → St × Bool
  | [], s => (s, true)
  | n :: ns, s =>
    match runSetup F n s with
    | (s, true) => runSetups F ns s
    | (s, false) => (s, false)

/-- The coroutine of the call: resolve the arguments found at the setup, call the test. _regression.py:655-664. -/
def runBody (k : Nat) (funcargs : List Val) (s : St) : St :=
  match getAll (resolve s) funcargs with
  | .error _ => s
  | .ok vs => { s with calls := s.calls ++ [.test k vs] }

/-- The end of a test: pytest forgets the results of fixtures with the scope of a test. -/
def endTest (F : Nat → Fixture) (s : St) : St :=
  { s with cache := fun n => if (F n).wide then s.cache n else none }

/-- A test, the `k`th. -/
def runTest (F : Nat → Fixture) (k : Nat) (t : Test) (s : St) : St :=
  match executeAll F t.fixtures s [] with
  | (s, _, false) => endTest F s
  | (s, w, true) =>
    match getAll (getValue s) t.args with
    | .error _ => endTest F s
    | .ok funcargs =>
      match runSetups F w s with
      | (s, false) => endTest F s
      | (s, true) => endTest F (runBody k funcargs s)

/-- All tests, numbered from `k`. -/
def runFrom (F : Nat → Fixture) : Nat → List Test → St → St
  | _, [], s => s
  | k, t :: ts, s => runFrom F (k + 1) ts (runTest F k t s)

/-- A session: the calls of the user's code. -/
def session (F : Nat → Fixture) (ts : List Test) : List Call := (runFrom F 0 ts ⟨fun _ => none, []⟩).calls

/-! ## Reports -/

/-- What an attempt to send a report ends with. -/
inductive Attempt where
  /-- An exception before the report is out. -/
  | refused
  /-- The report is out, then an exception (closing the connection). -/
  | broken
  /-- No exception. -/
  | sent
  deriving DecidableEq, Repr

/-- `RETRIES`. _regression.py:59. -/
def retries : Nat := 10

/-- The loop of `pytest_runtest_logreport`: how often the report went out, and whether the user is told of a failure. Each
attempt takes its ending from the list (none left: refused). _regression.py:749-767. -/
def sendLoop : Nat → List Attempt → Nat × Bool
  | left, as =>
    match as.headD .refused with
    | .sent => (1, false)
    | a =>
      let out := if a = .broken then 1 else 0
      match left with
      | 0 => (out, true)
      | left + 1 => let r := sendLoop left as.tail; (out + r.1, r.2)

/-- What the sender does for one report; without an address there is nobody to send it to. -/
def send (address : Bool) (as : List Attempt) : Nat × Bool :=
  if address then sendLoop retries as else (0, false)

/-- What a client of the listener sends before the connection is closed. -/
inductive Msg where
  /-- Nothing: `recv` raises. -/
  | nothing
  /-- `None`: the end. -/
  | stop
  /-- A test report. -/
  | report (n : Nat)
  /-- A report about collection. -/
  | other
  deriving DecidableEq, Repr

/-- What the main process does. -/
inductive Act where
  /-- `pytest_runtest_logreport` is called. -/
  | logged (n : Nat)
  /-- `notify_exception` is called. -/
  | notified
  deriving DecidableEq, Repr

/-- `_handle_test_reports`: accept connections until one sends `None`. `fails n`: a plugin raises while it handles the
report. The actions, and the connections that nobody accepted. _controller.py:362-387. -/
def receive (fails : Nat → Bool) : List Msg → List Act × List Msg
  | [] => ([], [])
  | .stop :: ms => ([], ms)
  | .nothing :: ms => let r := receive fails ms; (.notified :: r.1, r.2)
  | .other :: ms => receive fails ms
  | .report n :: ms =>
    let r := receive fails ms
    (.logged n :: (if fails n then .notified :: r.1 else r.1), r.2)

/-! ## Captured log messages -/

/-- The root logger, and what the plugin remembers. -/
structure Logs where
  /-- The level of the root logger. -/
  level : Nat
  /-- The handlers for captured messages are installed. -/
  capturing : Bool
  /-- What these handlers have collected. -/
  stream : List Nat
  /-- The section of the report with the log messages of the phase. -/
  section_ : List Nat
  /-- `_logging_root_level`. -/
  rootLevel : Nat
  /-- `_logging_level`. -/
  saved : Nat
  /-- `_logging_restored`. -/
  restored : Bool
  deriving DecidableEq, Repr

/-- A message, given by its level: collected if the root logger lets it through and the handlers are installed. -/
def Logs.log (s : Logs) (lv : Nat) : Logs :=
  if s.level ≤ lv ∧ s.capturing then { s with stream := s.stream ++ [lv] } else s

/-- The level `catching_logs` sets: the lower of the root logger's and the one of `--log-level`. -/
def phaseLevel (orig : Nat) : Option Nat → Nat
  | some l => min orig l
  | none => orig

/-- The synchronous part of a phase: the level is noted, pytest installs its handlers (with the level of `--log-level`, if
there is one) and empties them, the plugin saves the level, the hooks log some messages, pytest removes its handlers,
restores the level and makes the section of the report. _regression.py:343-347, 514, 537, 547, 809-812. -/
def Logs.phase (option : Option Nat) (msgs : List Nat) (s : Logs) : Logs :=
  let orig := s.level
  let level := phaseLevel orig option
  let s := { s with rootLevel := orig, capturing := true, stream := [], level := level, saved := level, restored := false }
  let s := msgs.foldl Logs.log s
  { s with capturing := false, level := orig, section_ := s.stream }

/-- `_restore_logging_state`. _regression.py:814-828. -/
def Logs.restore (s : Logs) : Logs :=
  if s.restored then s else { s with level := s.saved, capturing := true, restored := true }

/-- `_update_report_section`. _regression.py:830-852. -/
def Logs.update (s : Logs) : Logs :=
  { s with section_ := s.stream, level := s.rootLevel, capturing := false }

/-- A coroutine of the phase: it starts by restoring the state of logging, logs some messages, and the section is updated
when it is done. _regression.py:374-388, 607, 632, 656, 787. -/
def Logs.piece (s : Logs) (msgs : List Nat) : Logs := (msgs.foldl Logs.log s.restore).update

/-- A phase with its coroutines, one after another. -/
def Logs.run (option : Option Nat) (sync : List Nat) (pieces : List (List Nat)) (s : Logs) : Logs :=
  pieces.foldl Logs.piece (s.phase option sync)

end Verif.PytestFix
