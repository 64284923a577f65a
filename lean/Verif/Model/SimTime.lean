import Verif.Py.Basic
import Mathlib.Data.Rat.Floor
/-!
# Simulation time (src/cocotb/simtime.py) and `Timer` (src/cocotb/_gpi_triggers.py)

Times are exact rationals: this is what `int`, `Fraction` and `Decimal` values are. Simplification:
the rounding of intermediate `float` arithmetic (and of `Decimal` beyond its context precision) is
not modelled. `prec` is the simulator precision exponent `time_precision`.
-/
namespace Verif.SimTime

/-- `_get_log_time_scale`, simtime.py:226-248. -/
def logTimeScale (unit : String) : PyM Int :=
  match unit.toLower with
  | "fs" => .ok (-15)
  | "ps" => .ok (-12)
  | "ns" => .ok (-9)
  | "us" => .ok (-6)
  | "ms" => .ok (-3)
  | "sec" => .ok 0
  | _ => .error .valueError

/-- `_ldexp10`, simtime.py:176-183. -/
def ldexp10 (frac : Rat) (exp : Int) : Rat :=
  if exp > 0 then frac * 10 ^ exp.toNat else frac / 10 ^ (-exp).toNat

/-- `_get_time_from_sim_steps`, simtime.py:186-192 (`steps` is a number, see `convert`). -/
def timeFromSimSteps (prec : Int) (steps : Rat) (unit : String) : PyM Rat :=
  if unit = "step" then .ok steps
  else match logTimeScale unit with
    | .ok e => .ok (ldexp10 steps (prec - e))
    | .error e => .error e

/-- Python `round(x)` of an exact number: to nearest, ties to even. -/
def pyRound (x : Rat) : Int :=
  let f := x.floor
  let d := x - f
  if d < 1 / 2 then f
  else if d > 1 / 2 then f + 1
  else if f % 2 = 0 then f else f + 1

/-- The rounding part of `_get_sim_steps`, simtime.py:207-222. -/
def roundSteps (result : Rat) (mode : String) : PyM Int :=
  if mode = "error" then
    let r := result.floor
    if (r : Rat) ≠ result then .error .valueError else .ok r
  else if mode = "ceil" then .ok result.ceil
  else if mode = "round" then .ok (pyRound result)
  else if mode = "floor" then .ok result.floor
  else .error .valueError

/-- `_get_sim_steps`, simtime.py:195-222. -/
def getSimSteps (prec : Int) (time : Rat) (unit mode : String) : PyM Int :=
  if unit = "step" then roundSteps time mode
  else match logTimeScale unit with
    | .ok e => roundSteps (ldexp10 time (e - prec)) mode
    | .error e => .error e

/-- `convert`, simtime.py:76-113. With `unit == "step"` the value is used as it is. -/
def convert (prec : Int) (value : Rat) (unit dst mode : String) : PyM Rat :=
  let steps : PyM Rat :=
    if unit = "step" then .ok value
    else match getSimSteps prec value unit mode with
      | .ok n => .ok n
      | .error e => .error e
  match steps with
  | .error e => .error e
  | .ok n => if dst = "step" then .ok n else timeFromSimSteps prec n dst

/-- `get_sim_time`, simtime.py:126-161; the simulator reports two 32-bit words. -/
def getSimTime (prec : Int) (timeh timel : BitVec 32) (unit : String) : PyM Rat :=
  let steps : Nat := (timeh.toNat <<< 32) ||| timel.toNat
  if unit ≠ "step" then timeFromSimSteps prec steps unit else .ok steps

/-- `Timer.__init__`, _gpi_triggers.py:133-157: the number of steps the timer waits. `mode` is the
effective rounding mode. -/
def timerSteps (prec : Int) (time : Rat) (unit mode : String) : PyM Int :=
  if time ≤ 0 then .error .valueError
  else match getSimSteps prec time unit mode with
    | .error e => .error e
    | .ok n => .ok (if n = 0 then 1 else n)

end Verif.SimTime
