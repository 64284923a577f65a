import Verif.Model.TestManager
/-!
# What a test's verdict is made of, in the terms of the documentation
-/
namespace Verif.TestMgr

/-- The failure an observation stands for: the main task raised; another task raised and nobody was
waiting for it; the timeout; the test was cancelled from outside. Ending the test with `end_test` is not
a failure, nor is being cancelled. -/
def unhandled : Obs → Option Exc
  | .timedOut => some simTimeout
  | .cancelled => some testCancelled
  | .ended x =>
    match x.end_ with
    | .failed e => if x.task = 0 ∨ (x.awaited = false ∧ x.joined = false) then some e else none
    | _ => none

/-- The unhandled failures of a history, in order. -/
def failures (log : List Obs) : List Exc := log.filterMap unhandled

/-- The verdict for a list of failures. -/
def Reports : List Exc → Verdict → Prop
  | [], v => v = .nothing
  | [e], v => v = .one e
  | l, v => v = .group l

/-- No task is only waited for through the deprecated `join()`. -/
def NoJoin : Obs → Prop
  | .ended x => x.joined = true → x.awaited = true
  | _ => True

/-- An event in which shutting down a task does not start new tasks. -/
def Quiet : Ev → Prop
  | .ends _ script | .kill _ _ _ _ script | .timeout script | .cancel script =>
    ∀ t, Sub.create ∉ (script t).subs
  | _ => True

/-- An event in which the main task is killed by another task. -/
def KillsMain : Ev → Prop
  | .kill _ t _ _ _ => t = 0
  | _ => False

/-- A test that is started (with a timeout or without) and what happens from then on. -/
def history (timeout : Bool) (evs : List Ev) : TMState := run evs (step (.start timeout) TMState.init)

/-- The observation ends the test: its main task ended, another task failed or called `end_test` with
nobody waiting for it, the timeout expired, or the test was cancelled from outside. -/
def EndsTest : Obs → Prop
  | .timedOut => True
  | .cancelled => True
  | .ended x =>
    x.task = 0 ∨ ((x.end_ = .endTest ∨ ∃ e, x.end_ = .failed e) ∧ x.awaited = false ∧ x.joined = false)

/-- Every task the test has created has ended. -/
def AllEnded (s : TMState) : Prop := ∀ t, t < s.next → ∃ x, Obs.ended x ∈ s.log ∧ x.task = t

end Verif.TestMgr
