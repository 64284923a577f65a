import Verif.Model.Sched

/-!
Model of the callbacks that connect simulator events to triggers:
src/cocotb/share/lib/gpi/vpi/VpiCbHdl.cpp (and the same classes of vhpi/VhpiCbHdl.cpp), with
`handle_gpi_callback`, `register_…_callback` and `deregister` of src/cocotb/share/lib/pygpi/bind.cpp.

The simulator is an arbitrary environment: it calls back whenever it likes for callbacks that are
registered with it, also in the middle of another callback (when a value is written without delay).
What Python does inside a callback is arbitrary, except that it removes only callbacks it still holds:
ones that were neither run nor removed (src/cocotb/_base_triggers.py 60-88, _gpi_triggers.py 50-53).

Simplifications:
  * Freed memory is never reused; using it is recorded as an event.
  * Start-up and shutdown callbacks are left out, and return codes.
-/

namespace Verif.GpiCb

open Sched (upd)

/-- The build of the GPI library. -/
structure Cfg where
  /-- VPI without `VPI_NO_QUEUE_SETIMMEDIATE_CALLBACKS`, VpiCbHdl.cpp 11-16. VHPI has no queue. -/
  queued : Bool
  /-- One-shot callbacks stay registered after they fired and are removed then: `VERILATOR`
  (VpiCbHdl.cpp 150-163) and VHPI (VhpiCbHdl.cpp 96-113). -/
  recurring : Bool
  deriving DecidableEq, Repr

/-- Timed, read-only, read-write and next-step callbacks; value changes. -/
inductive Kind | oneShot | value
  deriving DecidableEq, Repr

/-- A `VpiCbHdl` and its `PythonCallback`. -/
structure Obj where
  kind : Kind := .oneShot
  /-- the handle / its `PythonCallback` has not been deleted -/
  alive : Bool := false
  data : Bool := false
  /-- `m_removed` -/
  removed : Bool := false
  /-- the simulator has the callback -/
  registered : Bool := false
  /-- Python holds the handle and has neither been called nor removed it -/
  held : Bool := false
  deriving DecidableEq, Repr

/-- What is observed of callback `h`: it is registered, the simulator calls back (`pass`: for an edge, the
signal then has the value the edge asks for), its Python function is called, Python removes it; memory of it is used (or deleted) after it was deleted. -/
inductive Ev | register (h : Nat) | fire (h : Nat) (pass : Bool) | run (h : Nat) | remove (h : Nat) | dangling (h : Nat)
  deriving DecidableEq, Repr

structure St where
  n : Nat := 0
  obj : Nat → Obj := fun _ => {}
  /-- `cb_queue` -/
  queue : List Nat := []
  /-- `reacting`, line 53 -/
  reacting : Bool := false
  /-- callbacks whose Python function is running, innermost first; whether they are run from the queue -/
  stack : List (Nat × Bool) := []
  log : List Ev := []

def St.set (s : St) (h : Nat) (o : Obj) : St := { s with obj := upd s.obj h o }
def St.ev (s : St) (e : Ev) : St := { s with log := s.log ++ [e] }

/-- `vpi_remove_cb` and what follows, VpiCbHdl.cpp 121-133, 152-163, 211-223: the handle is deleted if the
simulator removed the callback (`ok`) and marked otherwise. -/
def vpiRemove (s : St) (h : Nat) (ok : Bool) : St :=
  if ok then s.set h { s.obj h with registered := false, alive := false }
  else s.set h { s.obj h with removed := true }

/-- `VpiCbHdl::run` after the function was called or skipped, lines 147-173. -/
def afterOneShot (c : Cfg) (s : St) (h : Nat) (ok : Bool) : St :=
  if c.recurring then vpiRemove s h ok else s.set h { s.obj h with alive := false }

/-- `m_cb_func(m_cb_data)`, up to the call of the Python function, bind.cpp 163-176. -/
def callUp (s : St) (h : Nat) (fromQueue : Bool) : St :=
  if (s.obj h).data then
    St.ev { s.set h { s.obj h with held := false } with stack := (h, fromQueue) :: s.stack } (.run h)
  else s.ev (.dangling h)

/-- `cb_queue.pop_front()`, line 61, when a callback run from the queue is over. -/
def popIf (s : St) (fromQueue : Bool) : St :=
  if fromQueue then { s with queue := s.queue.tail } else s

/-- `handle_vpi_callback_`, lines 18-37, up to the call of the Python function, if there is one. `pass`: the
signal has the value the edge asks for (199-212). -/
def runCb (c : Cfg) (s : St) (h : Nat) (fromQueue pass ok : Bool) : St :=
  if ¬ (s.obj h).alive then popIf (s.ev (.dangling h)) fromQueue
  else
    match (s.obj h).kind with
    -- `VpiValueCbHdl::run`, 190-229
    | .value =>
      if (s.obj h).removed ∨ ¬ pass then popIf s fromQueue else callUp s h fromQueue
    -- `VpiCbHdl::run`, 137-176
    | .oneShot =>
      if (s.obj h).removed then popIf (afterOneShot c s h ok) fromQueue else callUp s h fromQueue

/-- The Python function of `h` has returned: the `PythonCallback` is deleted (bind.cpp 173), and the rest of
`run` (VpiCbHdl.cpp 147-173, 211-223). -/
def endRun (c : Cfg) (s : St) (h : Nat) (ok : Bool) : St :=
  let s := if (s.obj h).data then s.set h { s.obj h with data := false } else s.ev (.dangling h)
  if ¬ (s.obj h).alive then s.ev (.dangling h)
  else
    match (s.obj h).kind with
    | .value => vpiRemove s h ok
    | .oneShot => afterOneShot c s h ok

inductive Act
  /-- Python registers a callback; the simulator accepts -/
  | register (k : Kind)
  /-- Python removes callback `h`; `ok`: the simulator does -/
  | remove (h : Nat) (ok : Bool)
  /-- the simulator calls back -/
  | fire (h : Nat) (pass ok : Bool)
  /-- the innermost Python function returns -/
  | ret (ok : Bool)
  /-- the loop over the queue, lines 59-63 -/
  | drain (pass ok : Bool)
  deriving DecidableEq, Repr

/-- One step; `none` if it is not possible. -/
def exec (c : Cfg) (s : St) : Act → Option St
  -- `register_…_callback`, bind.cpp 201-239 and others, and `VpiCbHdl::arm`, VpiCbHdl.cpp 85-101
  | .register k =>
    some (St.ev { s.set s.n { kind := k, alive := true, data := true, registered := true, held := true } with
      n := s.n + 1 } (.register s.n))
  -- `deregister`, bind.cpp 798-809, and `VpiCbHdl::remove`, VpiCbHdl.cpp 103-135
  | .remove h ok =>
    if (s.obj h).held then
      if ¬ (s.obj h).alive then some ((s.set h { s.obj h with held := false }).ev (.dangling h))
      else
        let s := (s.set h { s.obj h with held := false, data := false }).ev (.remove h)
        if c.queued ∧ h ∈ s.queue then
          let s := { s with queue := s.queue.erase h }
          if ¬ c.recurring then some (s.set h { s.obj h with alive := false })
          else some (vpiRemove s h ok)
        else some (vpiRemove s h ok)
    else none
  -- `handle_vpi_callback`, VpiCbHdl.cpp 39-69. The simulator forgets a one-shot callback when it calls back.
  | .fire h pass ok =>
    if (s.obj h).registered then
      let s := (s.set h { s.obj h with
        registered := c.recurring || (s.obj h).kind == .value }).ev (.fire h pass)
      if ¬ c.queued then some (runCb c s h false pass ok)
      else if s.reacting then some { s with queue := s.queue ++ [h] }
      else some (runCb c { s with reacting := true } h false pass ok)
    else none
  | .ret ok =>
    match s.stack with
    | [] => none
    | (h, q) :: rest => some (popIf (endRun c { s with stack := rest } h ok) q)
  | .drain pass ok =>
    if c.queued ∧ s.reacting ∧ s.stack = [] then
      match s.queue with
      | [] => some { s with reacting := false }
      | h :: _ => some (runCb c s h true pass ok)
    else none

def run (c : Cfg) : St → List Act → Option St
  | s, [] => some s
  | s, a :: as => match exec c s a with
    | some s' => run c s' as
    | none => none

end Verif.GpiCb
