import Verif.Model.LogTime
/-!
# When messages were logged
-/
namespace Verif.Spec.LogTime

open Verif.LogTime

/-- The time of the simulation after `evs`. -/
def timeAt (evs : List Ev) : Option Nat :=
  evs.foldl (fun now e => match e with | .time t => t | _ => now) none

/-- Message `m` was logged in `evs` when the time was `t`. -/
def LoggedAt (evs : List Ev) (m : Msg) (t : Option Nat) : Prop :=
  ∃ pre extra post, evs = pre ++ .log m extra :: post ∧ timeAt pre = t

/-- All messages with the time at which they were logged, if the time is `now` at first. -/
def logged : Option Nat → List Ev → List (Msg × Option Nat)
  | _, [] => []
  | _, .time t :: rest => logged t rest
  | now, .log m _ :: rest => (m, now) :: logged now rest
  | now, .pass _ :: rest => logged now rest

/-- `text` shows a number with two digits behind the point. -/
def Shows (text : PyStr) (x : Rat) : Prop :=
  ∃ i a b : Nat, a < 10 ∧ b < 10 ∧ text = Nat.toDigits 10 i ++ ['.', Nat.digitChar a, Nat.digitChar b] ∧
    x = i + (10 * a + b) / 100

end Verif.Spec.LogTime
