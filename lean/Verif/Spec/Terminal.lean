import Verif.Model.Terminal
/-!
# What the user wants to see of failures
-/
namespace Verif.Spec
open Terminal

/-- A phase of a test that failed. -/
def Failed (t : TReport) : Prop := t.rep.outcome = .failed

/-- The test function of a runner. -/
def RunnerCall (t : TReport) : Prop := t.runner = true ∧ t.rep.when = .call

/-- Where the failure of a phase belongs. -/
inductive Place : TReport → Sec → Prop
  | runner (t) : RunnerCall t → Place t .runnerFailures
  | fixture (t) : t.rep.when ≠ .call → Place t .errors
  | test (t) : t.runner = false → t.rep.when = .call → Place t .failures

/-- A phase that passed as it should. -/
def Passed (t : TReport) : Prop := t.rep.outcome = .passed ∧ t.rep.wasxfail = false

end Verif.Spec
