import Verif.Model.SimTime
import Mathlib.Data.Int.Log
/-!
# Simulation time in Python's number types (src/cocotb/simtime.py, src/cocotb/_gpi_triggers.py)

`Model/SimTime` computes with exact numbers. Here the same functions are modelled with the four types
a time may have (`float | Fraction | Decimal`, simtime.py:76-113, and `int`), and every operation
rounds as Python's does. Simplifications: the exponent of a `float` or `Decimal` is unbounded (no
overflow, no subnormal numbers), there are no infinities and no `NaN`, and the decimal context is
the default one (28 digits, ties to even).
-/
namespace Verif.NumTime
open SimTime

/-- `x` rounded to `p` significant digits in base `b`, to nearest, ties to even. Models the rounding
of each arithmetic operation in simtime.py:176-183: of a `float` with `b = 2`, `p = 53`, of a
`Decimal` with `b = 10`, `p = 28`. -/
def roundDigits (b p : Nat) (x : Rat) : Rat :=
  if x = 0 then 0
  else
    let e : Int := Int.log b |x| - p + 1
    pyRound (x / (b : Rat) ^ e) * (b : Rat) ^ e

/-- The rounding of `float` arithmetic (simtime.py:180-183). -/
def fl (x : Rat) : Rat := roundDigits 2 53 x

/-- The rounding of `Decimal` arithmetic (simtime.py:180-183). -/
def dl (x : Rat) : Rat := roundDigits 10 28 x

/-- A time value, simtime.py:76-77 (`float` includes `int` in annotations). -/
inductive Num where
  | int (n : Int)
  | float (x : Rat)
  | frac (x : Rat)
  | dec (x : Rat)
  deriving DecidableEq, Repr

/-- The number a value stands for, as `floor`, `ceil`, `round` and comparisons see it,
simtime.py:207-220. -/
def Num.val : Num → Rat
  | .int n => n
  | .float x => x
  | .frac x => x
  | .dec x => x

/-- `frac * k` for an `int` `k`, simtime.py:181. A `float` converts `k` to `float` first; a `Decimal`
takes it exactly. -/
def Num.mul (v : Num) (k : Nat) : Num :=
  match v with
  | .int n => .int (n * k)
  | .float x => .float (fl (x * fl k))
  | .frac x => .frac (x * k)
  | .dec x => .dec (dl (x * k))

/-- `frac / k` for an `int` `k`, simtime.py:183. The quotient of two `int`s is the `float` nearest to
the exact quotient. -/
def Num.div (v : Num) (k : Nat) : Num :=
  match v with
  | .int n => .float (fl (n / k))
  | .float x => .float (fl (x / fl k))
  | .frac x => .frac (x / k)
  | .dec x => .dec (dl (x / k))

/-- `_ldexp10`, simtime.py:176-183. -/
def ldexp10N (v : Num) (exp : Int) : Num :=
  if exp > 0 then v.mul (10 ^ exp.toNat) else v.div (10 ^ (-exp).toNat)

/-- `_get_time_from_sim_steps`, simtime.py:186-192. -/
def timeFromSimStepsN (prec : Int) (steps : Num) (unit : String) : PyM Num :=
  if unit = "step" then .ok steps
  else match logTimeScale unit with
    | .ok e => .ok (ldexp10N steps (prec - e))
    | .error e => .error e

/-- `_get_sim_steps`, simtime.py:195-222. -/
def getSimStepsN (prec : Int) (time : Num) (unit mode : String) : PyM Int :=
  if unit = "step" then roundSteps time.val mode
  else match logTimeScale unit with
    | .ok e => roundSteps (ldexp10N time (e - prec)).val mode
    | .error e => .error e

/-- `convert`, simtime.py:76-113. -/
def convertN (prec : Int) (value : Num) (unit dst mode : String) : PyM Num :=
  let steps : PyM Num :=
    if unit = "step" then .ok value
    else match getSimStepsN prec value unit mode with
      | .ok n => .ok (.int n)
      | .error e => .error e
  match steps with
  | .error e => .error e
  | .ok n => if dst = "step" then .ok n else timeFromSimStepsN prec n dst

/-- `get_sim_time`, simtime.py:126-161. -/
def getSimTimeN (prec : Int) (timeh timel : BitVec 32) (unit : String) : PyM Num :=
  let steps : Nat := (timeh.toNat <<< 32) ||| timel.toNat
  if unit ≠ "step" then timeFromSimStepsN prec (.int steps) unit else .ok (.int steps)

/-- `Timer.__init__`, _gpi_triggers.py:133-157: the number of steps the timer waits. `mode` is the
effective rounding mode. -/
def timerStepsN (prec : Int) (time : Num) (unit mode : String) : PyM Int :=
  if time.val ≤ 0 then .error .valueError
  else match getSimStepsN prec time unit mode with
    | .error e => .error e
    | .ok n => .ok (if n = 0 then 1 else n)

end Verif.NumTime
