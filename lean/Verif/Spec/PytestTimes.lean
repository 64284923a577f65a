import Verif.Model.PytestTimes
/-!
# What the times in reports mean

Read from what has happened before a report: when its phase began, and when the last thing in it ended.
-/
namespace Verif.PytestTimes.Spec
open Verif.PytestTimes

/-- The phase that began last: which one, the simulation time and the tick. -/
def phase (tr : List Ev) : Option (When × Nat × Nat) :=
  tr.foldl (fun a e => match e with | .began w t u => some (w, t, u) | _ => a) none

/-- The simulation time at the end of what happened. -/
def time (tr : List Ev) : Nat :=
  tr.foldl (fun a e => match e with | .began _ t _ => t | .ran _ t _ => t | _ => a) 0

/-- The tick at the end of what happened. -/
def tick (tr : List Ev) : Nat :=
  tr.foldl (fun a e => match e with | .began _ _ u => u | .hooked u => u | .ran _ _ u => u | _ => a) 0

/-- For how many steps coroutines have run since the last phase began. -/
def own (tr : List Ev) : Nat :=
  tr.foldl (fun a e => match e with | .began _ _ _ => 0 | .ran t0 t1 _ => a + (t1 - t0) | _ => a) 0

/-- How many coroutines have run since the last phase began. -/
def runs (tr : List Ev) : Nat :=
  tr.foldl (fun a e => match e with | .began _ _ _ => 0 | .ran _ _ _ => a + 1 | _ => a) 0

/-- How many coroutines have run in the session. -/
def allRuns (tr : List Ev) : Nat :=
  tr.foldl (fun a e => match e with | .ran _ _ _ => a + 1 | _ => a) 0

/-- The reports logged. -/
def reports (tr : List Ev) : List Rep := tr.filterMap fun e => match e with | .report r => some r | _ => none

/-- Each report starts where the one before stopped, the first at `a`, and the last stops at `b`. -/
def Tiled (a : Nat) : List Rep → Nat → Prop
  | [], b => a = b
  | r :: rs, b => r.start = a ∧ a ≤ r.stop ∧ Tiled r.stop rs b

end Verif.PytestTimes.Spec
