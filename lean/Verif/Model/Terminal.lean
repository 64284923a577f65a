import Verif.Model.Summary
/-!
# What pytest shows in the terminal (src/cocotb_tools/_pytest/plugin.py)

pytest's own part is written down from `_pytest/terminal.py` (not part of this code base): `summary_failures`, `summary_errors`,
`short_test_summary` with the default `-rfE`, `_determine_main_color` and `build_summary_stats_line`.
Simplification: no warnings, no deselected tests, no other plugins with statuses of their own.
-/
namespace Verif.Terminal
open Summary

/-- A report, and whether `cocotb_runner` is among its keywords: the test is marked as a runner. -/
structure TReport where
  rep : Report
  runner : Bool
  deriving DecidableEq

/-- The keys of `terminalreporter.stats`: a category of pytest, or one of those with ` cocotb runner` after it. -/
inductive Cat where
  | plain (c : Category)
  | runner (c : Category)
  deriving DecidableEq

/-- `pytest_report_teststatus`, plugin.py:715-735. -/
def status (t : TReport) : Cat :=
  if t.runner ∧ t.rep.when = .call then .runner (category t.rep) else .plain (category t.rep)

/-- `stats[k]`, pytest. -/
def stats (ts : List TReport) (k : Cat) : List TReport := ts.filter fun t => status t = k

/-- Sections with tracebacks. -/
inductive Sec where
  | runnerFailures | errors | failures
  deriving DecidableEq

/-- All that is shown with a traceback, in order: `pytest_terminal_summary` (plugin.py:738-751) up to the end of that of pytest.
`style` is `--tb`, whether it is not `no`. -/
def shown (style : Bool) (ts : List TReport) : List (Sec × TReport) :=
  if style then
    (stats ts (.runner .failed)).map (Sec.runnerFailures, ·) ++ (stats ts (.plain .error)).map (Sec.errors, ·) ++
      (stats ts (.plain .failed)).map (Sec.failures, ·)
  else []

/-- The section `short test summary info`, pytest. -/
def short (ts : List TReport) : List TReport := stats ts (.plain .failed) ++ stats ts (.plain .error)

/-- The categories that pytest does not know, pytest. -/
def isUnknown : Cat → Bool
  | .plain _ => false
  | .runner _ => true

/-- Colours of the last line. -/
inductive Colour where
  | red | yellow | green
  deriving DecidableEq

/-- `_determine_main_color` at the end of the session, pytest. -/
def lineColour (ts : List TReport) : Colour :=
  if (stats ts (.plain .failed)).length ≠ 0 ∨ (stats ts (.plain .error)).length ≠ 0 then .red
  else if (stats ts (.plain .xpassed)).length ≠ 0 ∨ ts.any (fun t => isUnknown (status t)) then .yellow
  else if (stats ts (.plain .passed)).length ≠ 0 then .green
  else .yellow

/-- The keys of `stats` in the order in which they came. -/
def keysOf : List TReport → List Cat → List Cat
  | [], ks => ks
  | t :: ts, ks => keysOf ts (if status t ∈ ks then ks else ks ++ [status t])

/-- The numbers in the last line, pytest: one for each key but the empty one. The order, that of the known categories first, is not modelled. -/
def lastLine (ts : List TReport) : List (Cat × Nat) :=
  ((keysOf ts []).filter fun k => k ≠ .plain .none).map fun k => (k, (stats ts k).length)

end Verif.Terminal
