import Verif.Model.Make
/-!
Specification: what `make` should mean by the exit status 0.
-/
namespace Verif.MakeSpec
open Make

/-- The results file says that `failed` tests failed. -/
def Failed (f : Runner.File) (failed : Nat) : Prop := ∃ tests, Runner.readResults f = .ok (tests, failed)

/-- The simulator was run in this invocation, and its last run, of the design `d`, ended with `code` and left the results `f`. -/
def LastRun (before after : St) (d : Design) (code : Nat) (f : Runner.File) : Prop :=
  (∃ es, after.log = before.log ++ es ++ [.ran d code f]) ∧ after.resultsFile = f

/-- Nothing happened. -/
def Nothing (before after : St) : Prop := after.log = before.log ∧ after.fs .results = before.fs .results

/-- Compilers end with 0 if and only if they write their output. -/
def Sane (w : World) : Prop := ∀ n, (w.compile n).1 = 0 ↔ (w.compile n).2 = true

/-- All inputs are there. -/
def Inputs (v : Vars) (s : St) : Prop := ∀ t ∈ v.srcs ++ v.cdeps ++ v.sdeps, ∃ m n, s.fs t = some ⟨m, .text n⟩

/-- A directory with nothing in it. -/
def empty : St := ⟨fun _ => none, 0, []⟩

end Verif.MakeSpec
