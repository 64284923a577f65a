import Verif.Model.PytestDeco
import Verif.Spec.Regression
import Verif.Spec.Decorators
/-!
# What decorated tests promise under pytest
-/
namespace Verif.PytestDecoSpec
open Verif Deco Reg PytestDeco

/-- The verdict of the regression manager as pytest shows it. -/
def same : RegSpec.Verdict → Shown
  | .passed => .passed
  | .failed => .failed
  | .skipped => .skipped
  | .xfailed => .xfailed

/-- A test decorated with these settings, and more that do not matter for the verdict. -/
def given (t : Reg.Test) (timeout : Option Nat) (options : List Opt) (own : List Mark) : Given :=
  ⟨timeout, t.expectFail, t.expectError, t.skip, t.stage, options, own⟩

/-- The markers the function had before do not say how to judge it. -/
def Neutral (own : List Mark) : Prop := Mark.skip ∉ own ∧ ∀ r s, Mark.xfail r s ∉ own

/-- The call of the generated test. -/
def callOf (t : Deco.Test) : Call := ⟨t.kwargs.map fun a => (a.1, .obj a.2), false⟩

/-- A name that can stand in a list of names: identifiers are like this. -/
def Plainly (n : PyStr) : Prop := n ≠ [] ∧ ∀ c ∈ n, c ≠ ',' ∧ c.isWhitespace = false

/-- No value is wrapped in `Param`. -/
def Bare : Opt → Prop
  | .one _ vs => ∀ v ∈ vs, ∀ x n, v ≠ .param x n
  | .many _ rows => ∀ r ∈ rows, ∀ v ∈ r, ∀ x n, v ≠ .param x n

/-! ### Collection -/

/-- pytest looks at the function: its name matches, or a decorator or marker says that it is a test. -/
def Seen (f : Func) : Prop := f.matching = true ∨ f.decorated = true ∨ f.test = true ∨ f.runner ≠ none

/-- Somebody said that the function is a cocotb test: by decorator, by marker, or by a parameter `dut`. -/
def Marked (m : Module) (f : Func) : Prop :=
  f.decorated = true ∨ f.test = true ∨ m.test = true ∨ (f.async = true ∧ f.dut = true ∧ f.runner = none)

/-- The function is a cocotb test. -/
def CocotbTest (m : Module) (f : Func) : Prop := Seen f ∧ f.async = true ∧ Marked m f

/-- The function is a runner. -/
def IsRunner (m : Module) (f : Func) : Prop :=
  Seen f ∧ f.async = false ∧ ¬ Marked m f ∧ (f.runner ≠ none ∨ m.runner = true)

/-- The function is a test that has nothing to do with cocotb. -/
def Plain (m : Module) (f : Func) : Prop := Seen f ∧ ¬ Marked m f ∧ f.runner = none ∧ m.runner = false

/-- The runner `f` in module `self` runs the tests of module `k`: one it names, or its own if it names none. -/
def RunsModule (self : Nat) (f : Func) (k : Nat) : Prop :=
  (∃ ms, f.runner = some ms ∧ k ∈ ms) ∨ ((f.runner = none ∨ f.runner = some []) ∧ k = self)

end Verif.PytestDecoSpec
