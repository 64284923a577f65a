import Verif.Model.Regression
import Verif.Model.Log
import Verif.Model.Pytest
/-!
# The summaries at the end of a regression

`RegressionManager._log_test_summary` (src/cocotb/regression.py) and the summary of the pytest plugin (`pytest_terminal_summary`,
src/cocotb_tools/_pytest/plugin.py). Texts are lists of code points; 32 is the blank, 42 the asterisk. Numbers written with
`format(x, ".2f")` are given as texts.
-/
namespace Verif.Summary
open Reg (Outcome RM World)

/-- A literal. -/
def lit (s : String) : Text := s.toList.map Char.toNat

/-- `format(t, "^<n>")`: the extra blank is on the right. -/
def center (t : Text) (n : Nat) : Text :=
  let left := (n - t.length) / 2
  List.replicate left 32 ++ t ++ List.replicate (n - t.length - left) 32

/-- The numbers of a line: simulation time, real time and ratio. -/
structure Times where
  sim : Text
  real : Text
  ratio : Text

/-- The status of a line. regression.py:1048-1067. -/
def statusText : Outcome → Text
  | .skip => lit "SKIP"
  | .pass => lit "PASS"
  | .fail => lit "FAIL"
  | .xfail => lit "XFAIL"

/-- Its colour. regression.py:199-203, _ansi.py:31-34. -/
def colour : Outcome → Text
  | .skip | .xfail => Log.sgr 51 51
  | .pass => Log.sgr 51 50
  | .fail => Log.sgr 51 49

/-- `ratio`: not given for tests that were skipped. regression.py:1048-1067. -/
def ratioText (o : Outcome) (t : Times) : Text :=
  match o with
  | .skip => lit "-.--"
  | _ => t.ratio

/-- `test_line.format(…)`, without the line feed. regression.py:1044, 1073-1088: the columns for numbers are one less wide than in the
header, and have a blank after them. -/
def testLine (len : Nat) (a start b stop : Text) (t : Times) : Text :=
  lit "** " ++ Log.padRight a len ++ lit "  " ++ start ++ center b 6 ++ stop ++ lit "  " ++ Log.padLeft t.sim 12 ++ lit "   " ++
    Log.padLeft t.real 12 ++ lit "   " ++ Log.padLeft t.ratio 11 ++ lit "  **"

/-- The header. regression.py:1008-1019, 1039-1041. -/
def headerLine (len : Nat) : Text :=
  lit "** " ++ Log.padRight (lit "TEST") len ++ lit "  " ++ center (lit "STATUS") 6 ++ lit "  " ++ Log.padLeft (lit "SIM TIME (ns)") 13 ++ lit "  " ++
    Log.padLeft (lit "REAL TIME (s)") 13 ++ lit "  " ++ Log.padLeft (lit "RATIO (ns/s)") 12 ++ lit " **"

/-- `TOTAL_NAME`. regression.py:993-996. -/
def totalName (xfailInResults : Bool) (total passed failures skipped xfailed : Nat) : Text :=
  lit "TESTS=" ++ decText total ++ lit " PASS=" ++ decText passed ++ lit " FAIL=" ++ decText failures ++ lit " SKIP=" ++ decText skipped ++
    (if xfailInResults then lit " XFAIL=" ++ decText xfailed else [])

/-- `max(len(x) for x in l)`. -/
def maxLen (l : List Text) : Nat := l.foldl (fun m t => max m t.length) 0

/-- A line that is shown. `results`: `_test_results`, with the times of each. -/
structure Result where
  name : Text
  outcome : Outcome
  times : Times

/-- `_log_test_summary`: the lines. regression.py:979-1108. -/
def summary (strip : Bool) (results : List Result) (total : Text) (totals : Times) : List Text :=
  if results.isEmpty then []
  else
    let len := max (max 4 total.length) (maxLen (results.map (·.name)))
    let sep := List.replicate (3 + len + 2 + 6 + 2 + 13 + 2 + 13 + 2 + 12 + 3) 42
    [sep, headerLine len, sep] ++
      results.map (fun r => testLine len r.name (if strip then [] else colour r.outcome) (statusText r.outcome) (if strip then [] else Log.ansiDefault)
        { r.times with ratio := ratioText r.outcome r.times }) ++
      [sep, testLine len total [] [] [] totals, sep]

/-- The results of a regression with the times of each, and the summary `_tear_down` logs. regression.py:455-470. -/
def ofRegression {W : World} (strip : Bool) (times : Nat → Times) (totals : Times) (s : RM W) : List Text :=
  summary strip (s.results.zipIdx.map fun (r, i) => ⟨r.1.fullname.map Char.toNat, r.2, times i⟩)
    (totalName W.xfailInResults s.total s.passed s.failures s.skipped s.xfailed) totals

/-! ## pytest -/

/-- A `TestReport` of a test run by cocotb in the simulator, or by pytest itself. -/
structure Report where
  nodeid : Text
  when : Pytest.When
  outcome : Pytest.Outcome
  /-- It has `wasxfail`: the test is marked as expected to fail (without `strict`). -/
  wasxfail : Bool
  cocotb : Bool
  deriving DecidableEq

/-- The categories of `terminalreporter.stats` that matter. -/
inductive Category where
  | passed | failed | skipped | xfailed | xpassed | error | none
  deriving DecidableEq

/-- `pytest_report_teststatus` of pytest: _pytest/skipping.py, _pytest/runner.py and _pytest/terminal.py, in this order. -/
def category (r : Report) : Category :=
  if r.wasxfail ∧ r.outcome = .skipped then .xfailed
  else if r.wasxfail ∧ r.outcome = .passed then .xpassed
  else if r.when = .setup ∨ r.when = .teardown then
    match r.outcome with
    | .failed => .error
    | .skipped => .skipped
    | .passed => .none
  else
    match r.outcome with
    | .passed => .passed
    | .skipped => .skipped
    | .failed => .failed

/-- What is shown. -/
inductive Status where
  | pass | fail | skip
  deriving DecidableEq, Repr

/-- `map_status` and the test before it. plugin.py:766-772, 793-794. -/
def mapStatus : Category → Option Status
  | .passed => some .pass
  | .failed => some .fail
  | .skipped => some .skip
  | .xfailed => some .pass
  | .xpassed => some .fail
  | _ => none

/-- The categories in the order in which they first occurred: the keys of `stats`. -/
def keys (rs : List Report) : List Category :=
  rs.foldl (fun ks r => if category r ∈ ks then ks else ks ++ [category r]) []

/-- The rows of the summary: for each category its reports. plugin.py:793-817. -/
def rows (rs : List Report) : List (Text × Status) :=
  (keys rs).flatMap fun k =>
    match mapStatus k with
    | some st => (rs.filter fun r => category r = k ∧ r.cocotb).map fun r => (r.nodeid, st)
    | none => []

/-- `tests` and `count`: numbers of tests, PASS, FAIL and SKIP. -/
structure Counts where
  tests : Nat := 0
  pass : Nat := 0
  fail : Nat := 0
  skip : Nat := 0
  deriving DecidableEq

/-- `count[test_status] += 1; tests += 1`. plugin.py:799-800. -/
def Counts.add (c : Counts) : Status → Counts
  | .pass => { c with tests := c.tests + 1, pass := c.pass + 1 }
  | .fail => { c with tests := c.tests + 1, fail := c.fail + 1 }
  | .skip => { c with tests := c.tests + 1, skip := c.skip + 1 }

/-- The numbers in the last line. plugin.py:774-778, 793-800, 819-824. -/
def counts (rs : List Report) : Counts :=
  (keys rs).foldl (fun c k =>
    match mapStatus k with
    | some st => rs.foldl (fun c r => if category r = k ∧ r.cocotb then c.add st else c) c
    | none => c) {}

end Verif.Summary
