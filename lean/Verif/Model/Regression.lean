import Verif.Py.Int
/-!
# The regression manager: `regression.py`

The simulator and the tests are an environment that sends events: the timer between two tests fires,
the running test completes (with the exception its TestManager reports), user code uses the random
generators, the simulator ends. Log output, times and report attributes are not modelled; of the report
the status of each test case is kept.
-/
namespace Verif.Reg

/-- Exceptions and exception classes are opaque. -/
abbrev Exc := Nat
abbrev Cls := Nat

/-- An element of `expect_error`: an exception class, or a `pytest.RaisesExc`/`RaisesGroup` matcher. -/
inductive Expect where
  | cls (c : Cls)
  | matcher (m : Nat)
  deriving DecidableEq, Repr

/-- The attributes of `Test` the manager uses, _decorators.py. `id` is the identity of the object. -/
structure Test where
  id : Nat
  fullname : PyStr
  stage : Int
  skip : Bool
  expectError : List Expect
  expectFail : Bool
  deriving DecidableEq, Repr

/-- `_TestOutcome`, regression.py:157-161. -/
inductive Outcome where
  | pass | fail | skip | xfail
  deriving DecidableEq, Repr

/-- Status of a test case in the report. -/
inductive Status where
  | passed | failed | skipped | xfailed | error
  deriving DecidableEq, Repr

/-- The world around the manager: `isinstance`, matchers, the special exceptions
(`pytest.skip.Exception`, `pytest.xfail.Exception`, `TestSuccess`, the failure types of
regression.py:58-61), the RegressionTerminated and SimFailure exceptions the manager creates, whether
making the coroutine of the test with a given number succeeds, settings read from the environment,
SHA-1 of a name as a number, and the state of a random generator seeded with a number. -/
structure World where
  isa : Exc → Cls → Bool
  matches_ : Nat → Exc → Bool
  isSkip : Exc → Bool
  isXfail : Exc → Bool
  isSuccess : Exc → Bool
  isFailure : Exc → Bool
  regTerminated : Exc
  simFailure : Exc
  initOk : Nat → Test → Bool
  testcaseMode : Bool
  xfailInResults : Bool
  maxFailures : Int
  seed : Int
  sha1 : PyStr → Nat
  Rng : Type
  seeded : Int → Rng

/-- What the manager is waiting for. `dead` is the state after the simulator has ended without the
manager having finished: nothing calls it any more. -/
inductive Phase where
  | idle | timer | running | dead
  deriving DecidableEq, Repr

/-- What is observed when a test starts. -/
structure Start (W : World) where
  test : Test
  randomSeed : Int
  rng : W.Rng
  xrng : W.Rng

/-- State of the RegressionManager, regression.py:202-237, with the global random state. `teardowns`
counts how often the report was written and the simulator stopped. -/
structure RM (W : World) where
  queue : List Test
  cur : Option Test
  phase : Phase
  total : Nat
  count : Nat
  passed : Nat
  skipped : Nat
  failures : Nat
  xfailed : Nat
  results : List (Test × Outcome)
  cases : List (Test × Status)
  terminated : Option Exc
  tearing : Bool
  teardowns : Nat
  first : Bool
  starts : List (Start W)
  randomSeed : Int
  rng : W.Rng
  xrng : W.Rng
  saved : Option (W.Rng × W.Rng)

variable {W : World}

/-- A manager with registered tests, regression.py:202-237 and 309-318. -/
def RM.init (W : World) (tests : List Test) (rng xrng : W.Rng) : RM W :=
  { queue := tests, cur := none, phase := .idle, total := 0, count := 0, passed := 0, skipped := 0,
    failures := 0, xfailed := 0, results := [], cases := [], terminated := none, tearing := false,
    teardowns := 0, first := false, starts := [], randomSeed := W.seed, rng := rng, xrng := xrng,
    saved := none }

/-- `_record_test_skipped`, regression.py:672-725. -/
def recordSkipped (t : Test) (s : RM W) : RM W :=
  { s with cases := s.cases ++ [(t, .skipped)], results := s.results ++ [(t, .skip)],
           skipped := s.skipped + 1, count := s.count + 1 }

/-- `_record_test_init_failed`, regression.py:727-772. -/
def recordInitFailed (t : Test) (s : RM W) : RM W :=
  { s with cases := s.cases ++ [(t, .error)], results := s.results ++ [(t, .fail)],
           failures := s.failures + 1, count := s.count + 1 }

/-- `_record_test_xfail`, regression.py:774-852. -/
def recordXfail (t : Test) (s : RM W) : RM W :=
  if W.xfailInResults then
    { s with cases := s.cases ++ [(t, .xfailed)], results := s.results ++ [(t, .xfail)],
             xfailed := s.xfailed + 1, count := s.count + 1 }
  else
    { s with cases := s.cases ++ [(t, .passed)], results := s.results ++ [(t, .pass)],
             passed := s.passed + 1, count := s.count + 1 }

/-- `_record_test_passed`, regression.py:854-904. -/
def recordPassed (t : Test) (s : RM W) : RM W :=
  { s with cases := s.cases ++ [(t, .passed)], results := s.results ++ [(t, .pass)],
           passed := s.passed + 1, count := s.count + 1 }

/-- Counting and reporting part of `_record_test_failed`, regression.py:906-966. -/
def addFailed (t : Test) (s : RM W) : RM W :=
  { s with cases := s.cases ++ [(t, .failed)], results := s.results ++ [(t, .fail)],
           failures := s.failures + 1, count := s.count + 1 }

/-- COCOTB_MAX_FAILURES, the end of `_record_test_failed`, regression.py:967-977. -/
def limitFailures (s : RM W) : RM W :=
  if s.terminated = none ∧ W.maxFailures > 0 ∧ (s.failures : Int) ≥ W.maxFailures then
    { s with terminated := some W.regTerminated }
  else s

/-- `_record_test_failed`, regression.py:906-977. -/
def recordFailed (t : Test) (s : RM W) : RM W := limitFailures (addFailed t s)

/-- The matchers in `expect_error` and whether one matches, `handle_pytest_exception_matchers`,
regression.py:63-97. -/
def matcherHit (W : World) (e : Exc) (l : List Expect) : Bool :=
  l.any fun
    | .matcher m => W.matches_ m e
    | .cls _ => false

/-- `isinstance(exc, tuple(expected_excs_set))`, the classes in `expect_error`. -/
def classHit (W : World) (e : Exc) (l : List Expect) : Bool :=
  l.any fun
    | .cls c => W.isa e c
    | .matcher _ => false

/-- `_score_test`, regression.py:511-647. -/
def scoreTest (t : Test) (exc : Option Exc) (s : RM W) : RM W :=
  match exc with
  | some e =>
    if W.isSkip e then recordSkipped t s
    else if W.isXfail e then recordXfail t s
    else if W.isSuccess e then recordPassed t s
    else if t.expectError ≠ [] then
      if matcherHit W e t.expectError then recordXfail t s
      else if classHit W e t.expectError then recordXfail t s
      else if W.isFailure e then recordFailed t s
      else recordFailed t s
    else if t.expectFail then
      if W.isFailure e then recordXfail t s else recordFailed t s
    else recordFailed t s
  | none =>
    if t.expectError ≠ [] then recordFailed t s
    else if t.expectFail then recordFailed t s
    else recordPassed t s

/-- `_tear_down`, regression.py:455-478. -/
def tearDown (s : RM W) : RM W :=
  if s.tearing then s
  else { s with tearing := true, teardowns := s.teardowns + 1, phase := .idle, cur := none }

/-- Saving and seeding the generators for the test `t`, regression.py:435-450. -/
def seedFor (t : Test) (s : RM W) : RM W :=
  let sd := W.seed + (W.sha1 t.fullname : Int)
  { s with saved := some (s.rng, s.xrng), rng := W.seeded sd, xrng := W.seeded sd, randomSeed := sd }

/-- `start()` of the test, regression.py:453: `starts` records the seed and the generators it finds. -/
def started (t : Test) (s : RM W) : RM W :=
  { s with starts := s.starts ++ [⟨t, s.randomSeed, s.rng, s.xrng⟩], phase := .running }

/-- `_schedule_next_test` for the test `t`, regression.py:435-453. -/
def begin_ (t : Test) (s : RM W) : RM W := started t (seedFor t s)

/-- `_schedule_next_test`, regression.py:435-453: seeds the generators and starts the test. -/
def scheduleNext (s : RM W) : RM W :=
  match s.cur with
  | none => s
  | some t => begin_ t s

/-- The end of `_execute` for a test whose coroutine was made, regression.py:411-421. -/
def launch (s : RM W) : RM W :=
  if s.first then scheduleNext { s with first := false } else { s with phase := .timer }

/-- `self._test = self._test_queue.pop(0)`. -/
def take (t : Test) (q : List Test) (s : RM W) : RM W := { s with cur := some t, queue := q, phase := .idle }

/-- `_execute`, regression.py:378-424; the list is `self._test_queue`. -/
def execute : List Test → RM W → RM W
  | [], s => tearDown { s with queue := [], cur := none }
  | t :: q, s =>
    if t.skip ∧ ¬ W.testcaseMode then execute q (recordSkipped t (take t q s))
    else match s.terminated with
      | some e => execute q (scoreTest t (some e) (take t q s))
      | none =>
        if W.initOk s.count t then launch (take t q s)
        else execute q (recordInitFailed t (take t q s))

/-- Insertion behind all elements of the same or an earlier stage. -/
def insertStage (t : Test) : List Test → List Test
  | [] => [t]
  | u :: l => if t.stage ≤ u.stage then t :: u :: l else u :: insertStage t l

/-- `list.sort(key=stage)`: Python's sort is stable, so any stable sort gives this list. -/
def sortStage : List Test → List Test
  | [] => []
  | t :: l => insertStage t (sortStage l)

/-- The tests to run: shuffle (an arbitrary function when COCOTB_RANDOM_TEST_ORDER is set, else the
identity), sort by stage, filter; regression.py:349-364. A filter is `regex.search`. -/
def plan (shuffle : List Test → List Test) (filters : List (PyStr → Bool)) (tests : List Test) : List Test :=
  let l := sortStage (shuffle tests)
  if filters = [] then l else l.filter fun t => filters.any fun f => f t.fullname

/-- `start_regression`, regression.py:344-376. -/
def startRegression (shuffle : List Test → List Test) (filters : List (PyStr → Bool)) (s : RM W) : RM W :=
  let q := plan shuffle filters s.queue
  execute q { s with queue := q, total := q.length, count := 1, first := true }

/-- The random generators as they were before the test, regression.py:489-491. -/
def restored (s : RM W) (r x : W.Rng) : RM W :=
  { s with randomSeed := W.seed, rng := r, xrng := x, saved := none }

/-- The exception a completed test is judged by, regression.py:493-498. -/
def judgedBy (s : RM W) (exc : Option Exc) : Option Exc :=
  match s.terminated with
  | some e => some e
  | none => exc

/-- `_test_complete`, regression.py:480-509. -/
def testComplete (exc : Option Exc) (s : RM W) : RM W :=
  match s.cur, s.saved with
  | some t, some (r, x) =>
    let s2 := scoreTest t (judgedBy s exc) (restored s r x)
    execute s2.queue s2
  | _, _ => s

/-- `self._regression_terminated = SimFailure(...)`, regression.py:1116-1119. -/
def simStopped (s : RM W) : RM W := { s with terminated := some W.simFailure }

/-- Nothing calls the manager any more. -/
def abandoned (s : RM W) : RM W := { s with phase := .dead }

/-- `_on_sim_end`, regression.py:1111-1128. A running test is cancelled and completes (C55 is about
that). Cancelling a test that has been made but not started does nothing: its TestManager has no tasks
whose end could complete it (_test_manager.py:129-158). -/
def simEnd (s : RM W) : RM W :=
  if s.tearing then s
  else if s.phase = .running then testComplete none (simStopped s)
  else abandoned (simStopped s)

/-- Events. -/
inductive Ev (W : World) where
  | timer
  | complete (exc : Option Exc)
  | use (rng xrng : W.Rng)
  | simEnd

/-- One event; events the manager does not wait for do not happen. -/
def step (ev : Ev W) (s : RM W) : RM W :=
  match ev with
  | .timer => if s.phase = .timer then scheduleNext s else s
  | .complete exc => if s.phase = .running then testComplete exc s else s
  | .use r x => if s.phase = .running then { s with rng := r, xrng := x } else s
  | .simEnd => if s.phase = .dead then s else simEnd s

/-- All events. -/
def steps : List (Ev W) → RM W → RM W
  | [], s => s
  | ev :: evs, s => steps evs (step ev s)

/-- A whole regression. -/
def regression (W : World) (shuffle : List Test → List Test) (filters : List (PyStr → Bool))
    (tests : List Test) (rng xrng : W.Rng) (evs : List (Ev W)) : RM W :=
  steps evs (startRegression shuffle filters (RM.init W tests rng xrng))

end Verif.Reg
