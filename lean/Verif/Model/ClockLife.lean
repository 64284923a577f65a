import Verif.Model.Clock
/-!
# Starting and stopping a `Clock`

One `Clock` object, its driver tasks and, for the GPI implementation, its clock objects (`GpiClock`). Everything else
(the event loop, the simulator, other user code) is the order of the events. Drives of the signal are recorded with the
number of the driver.
-/
namespace Verif.ClockLife

open Clock

/-- State of a driver task: it is going to be resumed, with a `CancelledError` (`exc`) or not, its coroutine has been
entered (`begun`) or not; it waits; it is done. task.py. -/
inductive T where
  | sched (exc begun : Bool)
  | pend
  | done
  deriving DecidableEq, Repr

/-- One run of the clock. `due`: time of the toggle callback (`clk_toggle_cb_hdl`, GPI) or of the primed `Timer`
(Python); `pc`: place in the Python coroutine; `val`: `clk_val`. -/
structure Inst where
  task : T
  due : Option Nat
  pc : PyPc
  val : Bool
  sh : Bool
  t0 : Nat
  deriving DecidableEq, Repr

/-- The clock (`cur`: the run whose task is `_task`), its runs, and the drives of the signal, the last first. -/
structure Sys where
  now : Nat
  cur : Option Nat
  insts : List Inst
  drives : List (Nat × Nat × Bool)
  deriving DecidableEq, Repr

/-- Before the first `start()`. -/
def init : Sys := ⟨0, none, [], []⟩

/-- Period and high time as the GPI gets them, bind.cpp:992-1001. -/
def gpiP (c : Cfg) : Nat := (c.periodSteps % 2 ^ 64).toNat
@[inherit_doc gpiP] def gpiH (c : Cfg) : Nat := (c.highSteps % 2 ^ 64).toNat

/-- `Timer` high and low of the Python implementation, clock.py:330-331. -/
def pyH (c : Cfg) : Nat := c.highSteps.toNat
@[inherit_doc pyH] def pyL (c : Cfg) : Nat := (c.periodSteps - c.highSteps).toNat

/-- `Clock.start`, clock.py:301-342, `GpiClock::start`, bind.cpp:880-896. -/
def startOp (c : Cfg) (sh : Bool) (s : Sys) : PyM Sys :=
  if s.cur ≠ none then .error .runtimeError
  else
    match c.impl with
    | .gpi =>
      match Clock.start c sh with
      | .error e => .error e
      | .ok _ =>
        let r := gpiToggle (gpiP c) (gpiH c) true sh
        .ok { s with
          cur := some s.insts.length
          insts := s.insts ++ [⟨.sched false false, some (s.now + r.2), .start, r.1, sh, s.now⟩]
          drives := (s.insts.length, s.now, r.1) :: s.drives }
    | .py =>
      .ok { s with
        cur := some s.insts.length
        insts := s.insts ++ [⟨.sched false false, none, .start, sh, sh, s.now⟩] }

/-- `Task.cancel` of a driver, task.py:543-584: a `Timer` is unprimed at once, the error is thrown when the task is
resumed. (The GPI driver waits for an `Event`.) -/
def cancelTask (c : Cfg) (x : Inst) : Inst :=
  match x.task with
  | .pend => { x with task := .sched true true, due := if c.impl = .py then none else x.due }
  | .sched _ b => { x with task := .sched true b }
  | .done => x

/-- `Clock.stop`, clock.py:344-357. -/
def stopOp (c : Cfg) (s : Sys) : PyM Sys :=
  match s.cur with
  | none => .error .runtimeError
  | some i => .ok { s with cur := none, insts := s.insts.modify i (cancelTask c) }

/-- `Task._resume` of a driver, task.py:326-430, clock.py:315-339; the value assigned if any. A coroutine that has not
been entered ends without running its `finally`; one that has been stops the `GpiClock` there. -/
def resume (c : Cfg) (now : Nat) (x : Inst) : Inst × Option Bool :=
  match x.task with
  | .sched true b => ({ x with task := .done, due := if c.impl = .gpi ∧ b = true then none else x.due }, none)
  | .sched false begun =>
    match c.impl with
    | .gpi => ({ x with task := .pend }, none)
    | .py =>
      if begun = false ∧ (c.highSteps ≤ 0 ∨ c.periodSteps - c.highSteps ≤ 0) then ({ x with task := .done }, none)
      else
        let r := pyStep x.sh (pyH c) (pyL c) x.pc
        ({ x with task := .pend, due := some (now + r.2.1), pc := r.2.2 }, some r.1)
  | _ => (x, none)

/-- The toggle callback (`GpiClock::toggle_cb`, bind.cpp:935-941) or the `Timer` of a driver. -/
def fire (c : Cfg) (now : Nat) (x : Inst) : Inst × Option Bool :=
  match c.impl with
  | .gpi =>
    let r := gpiToggle (gpiP c) (gpiH c) false x.val
    ({ x with due := some (now + r.2), val := r.1 }, some r.1)
  | .py => ({ x with task := .sched false true, due := none }, none)

/-- What happens: calls of the user (`cancel i`: of the task that the `i`-th successful `start()` returned), the event
loop resumes a task, the simulator calls a callback, time goes on, Python frees what belongs to a finished task
(`clock_dealloc`, bind.cpp:966-987). -/
inductive Ev where
  | start (sh : Bool)
  | stop
  | cancel (i : Nat)
  | resume (i : Nat)
  | fire (i : Nat)
  | advance
  | free (i : Nat)
  deriving DecidableEq, Repr

/-- A task is going to be resumed. -/
def T.scheduled : T → Bool
  | .sched _ _ => true
  | _ => false

/-- Put a changed run and its drive back. -/
def put (s : Sys) (i : Nat) (r : Inst × Option Bool) : Sys :=
  { s with
    insts := s.insts.set i r.1
    drives := match r.2 with
      | some v => (i, s.now, v) :: s.drives
      | none => s.drives }

/-- One event; `none`: it cannot happen. The simulator is not returned to while a task is to be resumed, and time does
not go on while a callback is due. A call that raises changes nothing. -/
def step (c : Cfg) (s : Sys) : Ev → Option Sys
  | .start sh =>
    match startOp c sh s with
    | .ok s' => some s'
    | .error _ => some s
  | .stop =>
    match stopOp c s with
    | .ok s' => some s'
    | .error _ => some s
  | .cancel i => if i < s.insts.length then some { s with insts := s.insts.modify i (cancelTask c) } else none
  | .resume i =>
    match s.insts[i]? with
    | some x => if x.task.scheduled then some (put s i (resume c s.now x)) else none
    | none => none
  | .fire i =>
    match s.insts[i]? with
    | some x =>
      if (s.insts.all fun y => !y.task.scheduled) ∧ x.due = some s.now then some (put s i (fire c s.now x)) else none
    | none => none
  | .advance =>
    if s.insts.all fun y => !y.task.scheduled && decide (y.due ≠ some s.now) then some { s with now := s.now + 1 } else none
  | .free i =>
    match s.insts[i]? with
    | some x => if x.task = .done then some (put s i ({ x with due := none }, none)) else none
    | none => none

/-- A history of events. -/
def run (c : Cfg) : List Ev → Sys → Option Sys
  | [], s => some s
  | e :: es, s =>
    match step c s e with
    | some s' => run c es s'
    | none => none

end Verif.ClockLife
