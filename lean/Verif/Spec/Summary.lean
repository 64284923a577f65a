import Verif.Model.Summary
import Verif.Spec.Log
import Verif.Spec.Regression
/-!
# What the summaries should show

A table is read by columns: what stands at certain positions of each line, without the blanks around it.
-/
namespace Verif.SummarySpec
open Summary
open Reg (Outcome)

/-- Without blanks at both ends. -/
def trim (t : Text) : Text := ((t.dropWhile (· == 32)).reverse.dropWhile (· == 32)).reverse

/-- What stands in the `n` positions from `p` on. -/
def column (p n : Nat) (line : Text) : Text := trim ((line.drop p).take n)

/-- The five columns of a table whose first column has `w` positions. -/
def columns (w : Nat) (line : Text) : List Text :=
  [column 3 w line, column (w + 5) 6 line, column (w + 13) 13 line, column (w + 28) 13 line, column (w + 43) 12 line]

/-- A text that can be read back: no blanks around it, no escape character. -/
def Plain (t : Text) : Prop := trim t = t ∧ 27 ∉ t

/-- Numbers that fit in their columns. -/
def Fit (t : Times) : Prop :=
  Plain t.sim ∧ Plain t.real ∧ Plain t.ratio ∧ t.sim.length ≤ 12 ∧ t.real.length ≤ 12 ∧ t.ratio.length ≤ 11

/-- `lines`, sent to a terminal one after the other, show `vis`. -/
def Screen (lines vis : List Text) : Prop := lines.length = vis.length ∧ ∀ p ∈ lines.zip vis, Log.Shows p.1 p.2

/-- The word for an outcome. -/
def word : Outcome → String
  | .pass => "PASS"
  | .fail => "FAIL"
  | .skip => "SKIP"
  | .xfail => "XFAIL"

/-- What the columns of the row of a result should say: a test that was skipped has no ratio. -/
def entries (r : Result) : List Text :=
  [r.name, lit (word r.outcome), r.times.sim, r.times.real, if r.outcome = .skip then lit "-.--" else r.times.ratio]

/-- `vis` is a table, with a first column of `w` positions, of these rows and this last line. -/
structure Table (w : Nat) (vis : List Text) (rows : List Text) (last : Text) : Prop where
  lines : ∃ head, vis = [List.replicate (w + 58) 42, head, List.replicate (w + 58) 42] ++ rows ++
      [List.replicate (w + 58) 42, last, List.replicate (w + 58) 42] ∧
    columns w head = ["TEST", "STATUS", "SIM TIME (ns)", "REAL TIME (s)", "RATIO (ns/s)"].map lit
  even : ∀ l ∈ vis, l.length = w + 58

/-- How many of the rows show this status. -/
def showing (w : Nat) (status : String) (rows : List Text) : Nat := rows.countP fun r => column (w + 5) 6 r = lit status

/-! ## pytest -/

/-- How a test went: its three phases. It is called only if it was set up. -/
structure Phases where
  nodeid : Text
  setup : Pytest.Outcome
  call : Pytest.Outcome
  teardown : Pytest.Outcome
  /-- It is marked as expected to fail, and the report of the phase that decides says so (`wasxfail`): that phase is then "skipped" if it
  raised an exception and "passed" otherwise. -/
  xfail : Bool

/-- Its reports. -/
def Phases.reports (t : Phases) : List Report :=
  [⟨t.nodeid, .setup, t.setup, t.xfail && t.setup ≠ .passed, true⟩] ++
    (if t.setup = .passed then [⟨t.nodeid, .call, t.call, t.xfail, true⟩] else []) ++ [⟨t.nodeid, .teardown, t.teardown, false, true⟩]

/-- It failed if one of its phases failed. -/
def Phases.failed (t : Phases) : Prop := t.setup = .failed ∨ (t.setup = .passed ∧ t.call = .failed) ∨ t.teardown = .failed

/-- The status of a test whose setup and teardown did not fail: an expected failure is a pass, and a pass where a failure was expected is a
failure. -/
def Phases.verdict (t : Phases) : Status :=
  match t.setup, t.call with
  | .passed, .failed => .fail
  | .passed, .passed => if t.xfail then .fail else .pass
  | _, _ => if t.xfail then .pass else .skip

/-- A session: reports of tests, each with its own identifier, and others, in any order. -/
def Session (tests : List Phases) (rs : List Report) : Prop :=
  (tests.map (·.nodeid)).Nodup ∧ (∀ t ∈ tests, rs.filter (fun r => r.nodeid = t.nodeid) = t.reports) ∧
    ∀ r ∈ rs, r.cocotb = true → ∃ t ∈ tests, r.nodeid = t.nodeid

/-- The statuses of the rows of a test. -/
def statuses (id : Text) (rows : List (Text × Status)) : List Status := (rows.filter fun r => r.1 = id).map (·.2)

end Verif.SummarySpec
