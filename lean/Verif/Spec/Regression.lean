import Verif.Model.Regression
/-!
# What a regression is expected to do, in the terms of the documentation

Only the data types of the model (tests, exceptions, outcomes) are used here.
-/
namespace Verif.RegSpec
open Verif.Reg

/-- A test is selected if there is no filter or one of them matches its full name. -/
def Selected (filters : List (PyStr → Bool)) (t : Test) : Prop :=
  filters = [] ∨ ∃ f ∈ filters, f t.fullname = true

/-- The exception is one the test declares in `expect_error`. -/
def Expected (W : World) (t : Test) (e : Exc) : Prop :=
  (∃ c, Expect.cls c ∈ t.expectError ∧ W.isa e c = true) ∨
  (∃ m, Expect.matcher m ∈ t.expectError ∧ W.matches_ m e = true)

/-- The four verdicts of the documentation. -/
inductive Verdict where
  | passed | failed | skipped | xfailed
  deriving DecidableEq, Repr

/-- The exceptions which end a test with a verdict of their own. -/
def Ender (W : World) (e : Exc) : Prop := W.isSkip e = true ∨ W.isXfail e = true ∨ W.isSuccess e = true

/-- When a test gets which verdict. -/
def Judged (W : World) (t : Test) (exc : Option Exc) : Verdict → Prop
  | .skipped => ∃ e, exc = some e ∧ W.isSkip e = true
  | .xfailed => ∃ e, exc = some e ∧
      (W.isXfail e = true ∨
       (¬ Ender W e ∧ (Expected W t e ∨ (t.expectError = [] ∧ t.expectFail = true ∧ W.isFailure e = true))))
  | .passed => (exc = none ∧ t.expectError = [] ∧ t.expectFail = false) ∨
      ∃ e, exc = some e ∧ W.isSuccess e = true
  | .failed => (exc = none ∧ (t.expectError ≠ [] ∨ t.expectFail = true)) ∨
      ∃ e, exc = some e ∧ ¬ Ender W e ∧ ¬ Expected W t e ∧
        ¬ (t.expectError = [] ∧ t.expectFail = true ∧ W.isFailure e = true)

/-- How a verdict shows up in the results: an expected failure is a pass unless the preview setting is
on. -/
def shown (W : World) : Verdict → Outcome
  | .passed => .pass
  | .failed => .fail
  | .skipped => .skip
  | .xfailed => if W.xfailInResults then .xfail else .pass

/-- The exception classes involved are unrelated: no exception is two of skip, xfail and success, and
the exceptions the manager makes up are none of them. -/
structure Sane (W : World) : Prop where
  skip_xfail : ∀ e, ¬ (W.isSkip e = true ∧ W.isXfail e = true)
  skip_success : ∀ e, ¬ (W.isSkip e = true ∧ W.isSuccess e = true)
  xfail_success : ∀ e, ¬ (W.isXfail e = true ∧ W.isSuccess e = true)
  reg : ¬ Ender W W.regTerminated ∧ W.isFailure W.regTerminated = false
  sim : ¬ Ender W W.simFailure ∧ W.isFailure W.simFailure = false

/-- The test is marked as skipped, and that is obeyed. -/
def Skipped (W : World) (t : Test) : Prop := t.skip = true ∧ W.testcaseMode = false

instance (W : World) (t : Test) : Decidable (Skipped W t) := by unfold Skipped; infer_instance

/-- How many results have this outcome. -/
def howMany (o : Outcome) (l : List (Test × Outcome)) : Nat := (l.map (·.2)).count o

/-- The status of a test case in the report agrees with the outcome in the summary. -/
def Agrees : Status → Outcome → Prop
  | .passed, .pass => True
  | .failed, .fail => True
  | .error, .fail => True
  | .skipped, .skip => True
  | .xfailed, .xfail => True
  | _, _ => False

end Verif.RegSpec
