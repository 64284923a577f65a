import Verif.Model.SimTime
/-!
# `Clock` (src/cocotb/clock.py, src/cocotb/share/lib/pygpi/bind.cpp) and `ClockCycles`
(src/cocotb/_extended_awaitables.py)
-/
namespace Verif.Clock
open SimTime

/-- The two implementations, clock.py:38. -/
inductive Impl where
  | gpi | py
  deriving DecidableEq, Repr

/-- What the constructor stores, clock.py:171-222. -/
structure Cfg where
  periodSteps : Int
  highSteps : Int
  impl : Impl
  deriving DecidableEq, Repr

/-- Choice of the implementation, clock.py:190-199 (`none` is the argument `None`). -/
def pickImpl (trustInertial : Bool) : Option String → PyM Impl
  | none => .ok (if trustInertial then .gpi else .py)
  | some s => if s = "gpi" then .ok .gpi else if s = "py" then .ok .py else .error .valueError

/-- `Clock.__init__`, clock.py:159-222. `actionOk`: `set_action` (or the default) is one of the three
accepted classes; `trustInertial` is the configuration flag. -/
def new (prec : Int) (period : Rat) (unit : String) (impl : Option String) (trustInertial actionOk : Bool)
    (periodHigh : Option Rat) : PyM Cfg :=
  match getSimSteps prec period unit "error" with
  | .error e => .error e
  | .ok p =>
    if ¬ actionOk then .error .typeError
    else
      match pickImpl trustInertial impl with
      | .error e => .error e
      | .ok im =>
        match periodHigh with
        | some h =>
          if h ≥ period then .error .valueError
          else match getSimSteps prec h unit "error" with
            | .error e => .error e
            | .ok hs => .ok ⟨p, hs, im⟩
        | none =>
          if p % 2 ≠ 0 then .error .valueError else .ok ⟨p, p / 2, im⟩

/-- One drive of the clock signal: the time since `start()` (in steps) and the value. -/
abbrev Drive := Nat × Bool

/-- Positions in the `drive` coroutine of the Python implementation, clock.py:329-339. -/
inductive PyPc where
  | start | low | high
  deriving DecidableEq, Repr

/-- The Python `drive` coroutine up to its next `await`, clock.py:329-339: the value assigned, the
timer awaited (`th` = `timer_high`, `tl` = `timer_low`) and where it continues. -/
def pyStep (startHigh : Bool) (th tl : Nat) : PyPc → Bool × Nat × PyPc
  | .start => if startHigh then (true, th, .low) else (false, tl, .high)
  | .low => (false, tl, .high)
  | .high => (true, th, .low)

/-- The time and position of the `k`-th resumption; awaiting a `Timer(n)` resumes `n` steps later. -/
def pyAt (startHigh : Bool) (th tl : Nat) : Nat → Nat × PyPc
  | 0 => (0, .start)
  | k + 1 =>
    let s := pyAt startHigh th tl k
    let r := pyStep startHigh th tl s.2
    (s.1 + r.2.1, r.2.2)

/-- The drives of the Python implementation, in order. -/
def pyDrives (startHigh : Bool) (th tl : Nat) (k : Nat) : Drive :=
  let s := pyAt startHigh th tl k
  (s.1, (pyStep startHigh th tl s.2).1)

/-- `GpiClock::toggle`, bind.cpp:907-931: (new value, time to the next edge). -/
def gpiToggle (period tHigh : Nat) (initialSet : Bool) (clkVal : Bool) : Bool × Nat :=
  let v := if initialSet then clkVal else !clkVal
  (v, if v then tHigh else period - tHigh)

/-- Time of the `k`-th call of `toggle`, the value it drives and the delay it sets up. -/
def gpiAt (period tHigh : Nat) (startHigh : Bool) : Nat → Nat × Bool × Nat
  | 0 => let r := gpiToggle period tHigh true startHigh; (0, r.1, r.2)
  | k + 1 =>
    let s := gpiAt period tHigh startHigh k
    let r := gpiToggle period tHigh false s.2.1
    (s.1 + s.2.2, r.1, r.2)

/-- The drives of the GPI implementation, in order. -/
def gpiDrives (period tHigh : Nat) (startHigh : Bool) (k : Nat) : Drive :=
  let s := gpiAt period tHigh startHigh k
  (s.1, s.2.1)

/-- `Clock.start` followed by the first step of the driver: the drives, or the error.
GPI: the two counts are parsed as unsigned 64-bit numbers without overflow checking (bind.cpp:992-1001),
`GpiClock::start` rejects bad parameters (bind.cpp:880-896), reported as `ValueError` (bind.cpp:1006-1008).
Python: the `Timer` constructors in `drive` reject non-positive times (clock.py:330-331,
_gpi_triggers.py:143-144; the steps are positive integers so no rounding is involved). -/
def start (c : Cfg) (startHigh : Bool) : PyM (Nat → Drive) :=
  match c.impl with
  | .gpi =>
    let p := (c.periodSteps % 2 ^ 64).toNat
    let h := (c.highSteps % 2 ^ 64).toNat
    if p < 2 ∨ h < 1 ∨ h ≥ p then .error .valueError else .ok (gpiDrives p h startHigh)
  | .py =>
    if c.highSteps ≤ 0 then .error .valueError
    else if c.periodSteps - c.highSteps ≤ 0 then .error .valueError
    else .ok (pyDrives startHigh c.highSteps.toNat (c.periodSteps - c.highSteps).toNat)

/-- `edge_type` argument. -/
inductive Edge where
  | rising | falling | change
  deriving DecidableEq, Repr

/-- What a waiting coroutine awaits. -/
inductive Await where
  | null | edge | timer (steps : Nat)
  deriving DecidableEq, Repr

/-- The sequence of awaits performed by `Clock.cycles`, clock.py:376-401. Simplification: the timer
argument `period_steps * cycles_skipped / 2` is exact (Python computes it as a float, exact below
2^53). -/
def cyclesPlan (periodSteps : Nat) (numCycles : Int) (e : Edge) : PyM (List Await) :=
  if numCycles = 0 then .ok [.null]
  else if numCycles < 0 then .error .valueError
  else
    let n := numCycles.toNat - 1
    if n ≥ 2 then
      if e = .change then
        let skipped := n / 2 * 2
        .ok (.edge :: .timer (periodSteps * skipped / 2) :: List.replicate (n - skipped + 1) .edge)
      else .ok (.edge :: .timer (periodSteps * n) :: List.replicate 1 .edge)
    else .ok (.edge :: List.replicate n .edge)

/-- The sequence of awaits of `ClockCycles(signal, n)`, _extended_awaitables.py:282-286 (`range` of a
negative number is empty). -/
def clockCyclesPlan (numCycles : Int) : List Await := List.replicate numCycles.toNat .edge

end Verif.Clock
