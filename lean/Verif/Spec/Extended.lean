import Verif.Spec.Sched

/-!
Specifications for `Combine`, `First`, `ClockCycles` and `with_timeout`, in terms of the log of what
happened: what a coroutine's code does, which triggers fired and when.
-/

namespace Verif.ExtSpec

open Verif.Sched SchedSpec

/-- What a coroutine does when it is run: await a trigger, return, or let an exception out. -/
inductive Out
  | await (g : Trig)
  | ret (v : Nat)
  | raise (e : Exc)
  deriving DecidableEq, Repr

/-- The code of a coroutine, as a function of how it has been resumed so far: `none` is a normal
resumption (the first one starts it), `some e` an exception thrown in at its `await`. -/
abbrev Prog := List (Option Exc) → Out

/-- How task `t` was resumed, in order. -/
def resumes (t : Nat) (log : List Obs) : List (Option Exc) :=
  log.filterMap fun
    | .resume u e => if u = t then some e else none
    | _ => none

/-- Task `t` runs the code `p`: whenever it awaited or returned something, that was what the code
does next. -/
def Follows (p : Prog) (t : Nat) (log : List Obs) : Prop :=
  ∀ pre o post, log = pre ++ o :: post →
    (∀ g, o = .suspend t g → p (resumes t pre) = .await g) ∧
    (∀ s v, o = .done t s (.value v) → p (resumes t pre) = .ret v) ∧
    o ≠ .suspendBad t

/-- `t` did nothing in this part of the log: it was not resumed, did not await and did not end. -/
def Still (t : Nat) (log : List Obs) : Prop :=
  ∀ o ∈ log, (∀ e, o ≠ .resume t e) ∧ (∀ g, o ≠ .suspend t g) ∧ o ≠ .suspendBad t ∧
    ∀ s r, o ≠ .done t s r

/-- Trigger `g` fired for somebody who started to wait for it when the log was `before`, `since`
being what happened since then.  An event that is set, a task that is done and a `NullTrigger` fire
at once. -/
def Happened (g : Trig) (before since : List Obs) : Prop :=
  match g with
  | .gpi n => .fire n ∈ since
  | .event e => lastSet e before = true ∨ .setE e ∈ since
  | .null _ => True
  | .lock l n => .grant l n ∈ since
  | .complete u | .join u => ∃ s o, .done u s o ∈ before ++ since

/-- How often the simulator fired trigger `n`. -/
def fires (n : Nat) (log : List Obs) : Nat := log.count (.fire n)

/-- The log since task `t` was started. -/
def sinceStart (t : Nat) (log : List Obs) : List Obs :=
  log.dropWhile fun
    | .resume u _ => u != t
    | _ => true

/-- Nobody but `t` ever waited for trigger `m`: it is `t`'s own, as a `Timer` created for it is. -/
def Private (m t : Nat) (log : List Obs) : Prop := ∀ x, .suspend x (.gpi m) ∈ log → x = t

/-- Task `t` ended in this part of the log. -/
def HasEnded (t : Nat) (log : List Obs) : Prop := ∃ s o, .done t s o ∈ log

/-- The last trigger the simulator fired. -/
def lastFired (log : List Obs) : Option Nat :=
  (log.filterMap fun
    | .fire n => some n
    | _ => none).getLast?

end Verif.ExtSpec
