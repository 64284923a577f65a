/-!
# Times in the reports of the pytest plugin (src/cocotb_tools/_pytest/_regression.py)

The regression manager of the plugin over the items of a session, with the simulation time and the clock on the wall. What
the hooks of pytest and the coroutines do is given: how long they take and whether they pass. Simulation times are counted
in steps (the conversion to the unit of `--cocotb-sim-time-unit` is `get_sim_time`, `Model/SimTime`), the clock in whole
ticks, and reports are exact quotients where Python has floats. Simplifications: asynchronous fixtures are all found by the
hook for the setup of the item; logging a report and taking the result of a coroutine take no time; no exception ends the
session (`Model/Pytest` has those).
-/
namespace Verif.PytestTimes

/-- Phases of an item. -/
inductive When where
  | setup
  | call
  | teardown
  deriving DecidableEq, Repr

/-- A coroutine of a fixture or of the test function: the simulation steps and ticks it takes, whether it passes. -/
structure Part where
  steps : Nat
  ticks : Nat
  ok : Bool
  deriving DecidableEq, Repr

/-- The hook for a phase: the ticks it takes, whether it passes, the coroutines it leaves to be run. -/
structure Hook where
  ticks : Nat
  ok : Bool
  parts : List Part
  deriving DecidableEq, Repr

/-- An item: the hooks `pytest_runtest_setup`, `pytest_runtest_call` (which leaves at most one coroutine) and
`pytest_runtest_teardown`. -/
structure Item where
  setup : Hook
  callTicks : Nat
  call : Option Part
  teardown : Hook
  deriving DecidableEq, Repr

/-- What a report says: `sim_time_start`, `sim_time_stop`, `sim_time_duration`, `duration`, `sim_time_ratio`. -/
structure Rep where
  when_ : When
  start : Nat
  stop : Nat
  simDuration : Nat
  duration : Nat
  ratio : Rat
  deriving DecidableEq, Repr

/-- What happens in a session, for the specification. -/
inductive Ev where
  /-- The hook for a phase is called at this simulation time and tick. -/
  | began (w : When) (t u : Nat)
  /-- The hook has returned at this tick. -/
  | hooked (u : Nat)
  /-- A coroutine has run from the first to the second simulation time; the tick at its end. -/
  | ran (t0 t1 u : Nat)
  /-- A report is given to `pytest_runtest_logreport`. -/
  | report (r : Rep)
  deriving DecidableEq, Repr

/-- The state of the regression manager and the simulation. _regression.py:137-142. -/
structure St where
  now : Nat
  clock : Nat
  callStart : Option Nat := none
  simTimeStart : Nat := 0
  scheduled : Bool := false
  trace : List Ev := []
  deriving DecidableEq, Repr

/-- `pytest_runtest_makereport`. _regression.py:705-724. -/
def makeReport (w : When) (duration : Nat) (st : St) : Rep :=
  let stop := st.now
  let simDuration := stop - st.simTimeStart
  { when_ := w, start := st.simTimeStart, stop := stop, simDuration := simDuration, duration := duration
    ratio := if simDuration = 0 then 0 else (duration : Rat) / (simDuration : Rat) }

/-- `_call_and_report` for the hook of a phase, which takes `ticks`. _regression.py:343-347, 354-372. -/
def callHook (w : When) (ticks : Nat) (st : St) : St × Rep :=
  let start := st.clock
  let stop := st.clock + ticks
  let st' := { st with clock := stop, callStart := some start, simTimeStart := st.now,
                       trace := st.trace ++ [.began w st.now start, .hooked stop] }
  (st', makeReport w (stop - start) st')

/-- `_completed`: `_call_and_report` for the result of a coroutine. _regression.py:374-388, 354-372. -/
def completed (w : When) (st : St) : St × Rep :=
  match st.callStart with
  | none =>
    let st' := { st with callStart := some st.clock, simTimeStart := st.now }
    (st', makeReport w 0 st')
  | some s => (st, makeReport w (st.clock - s) st)

/-- `_start`, up to the end of the coroutine: all but the first of the session wait for one step. _regression.py:854-864. -/
def start (p : Part) (st : St) : St :=
  let t0 := if st.scheduled then st.now + 1 else st.now
  { st with now := t0 + p.steps, clock := st.clock + p.ticks, scheduled := true,
            trace := st.trace ++ [.ran t0 (t0 + p.steps) (st.clock + p.ticks)] }

/-- `pytest_runtest_logreport`. -/
def log (r : Rep) (st : St) : St := { st with trace := st.trace ++ [.report r] }

/-- `_setup` from the report of the hook or of a coroutine to the end of the setup, and whether the test function is to be
called. _regression.py:390-397, 413-424. -/
def setupLoop : List Part → Bool → Rep → St → St × Bool
  | _, false, r, st => (log r st, false)
  | [], true, r, st => (log r st, true)
  | p :: ps, true, _, st =>
    let c := completed .setup (start p st)
    setupLoop ps p.ok c.2 c.1

/-- `_teardown` from the report of the hook or of a coroutine to the log. _regression.py:475-479. -/
def teardownLoop : List Part → Rep → St → St
  | [], r, st => log r st
  | p :: ps, _, st =>
    let c := completed .teardown (start p st)
    teardownLoop ps c.2 c.1

/-- The call of the test function. _regression.py:426-434, 436-443. -/
def callPhase (i : Item) (st : St) : St :=
  let c := callHook .call i.callTicks st
  match i.call with
  | none => log c.2 c.1
  | some p =>
    let d := completed .call (start p c.1)
    log d.2 d.1

/-- One item. _regression.py:390-479. -/
def runItem (i : Item) (st : St) : St :=
  let c := callHook .setup i.setup.ticks st
  let s := setupLoop i.setup.parts i.setup.ok c.2 c.1
  let st1 := if s.2 then callPhase i s.1 else s.1
  let d := callHook .teardown i.teardown.ticks st1
  teardownLoop i.teardown.parts d.2 d.1

/-- A session that starts at some simulation time and tick. _regression.py:267-283, 481-488. -/
def session : List Item → St → St
  | [], st => st
  | i :: is, st => session is (runItem i st)

/-- The state at the start of the session. -/
def init (t u : Nat) : St := { now := t, clock := u }

/-- `ratio` of the summary for a report. plugin.py:802-804. -/
def summaryRatio (r : Rep) : Rat := if r.duration = 0 then 0 else (r.simDuration : Rat) / (r.duration : Rat)

end Verif.PytestTimes
