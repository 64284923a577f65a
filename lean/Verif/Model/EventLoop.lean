/-!
Model of src/cocotb/_event_loop.py: the deque of scheduled callbacks and the loop that drains it.

The loop is modelled as a machine that is stepped by actions, so that what a callback does while it
runs (schedule more callbacks, cancel some, raise) is unconstrained: any sequence of `op` actions
may happen between two steps of the loop. The log is a ghost recording what happened. Debug logging
and the cycle counter (lines 46, 50-51, 54-61) are left out: they have no effect on the callbacks.
-/

namespace Verif.Loop

/-- What can be observed: callback `i` was scheduled at the end (`sched`) or at the front
(`schedL`), cancelled, run, dropped because it was cancelled; `run()` returned, or ended by an
exception. -/
inductive Ev
  | sched (i : Nat) | schedL (i : Nat) | cancel (i : Nat) | run (i : Nat) | skip (i : Nat)
  | ret | exc
  deriving DecidableEq, Repr

/-- Where `run()` is: not active, in the inner loop (at its head, or inside a callback), or in
`run_bridge_threads()` (line 63). -/
inductive Phase | idle | loop | bridge
  deriving DecidableEq, Repr

/-- `EventLoop` (_event_loop.py 34-37), with `ScheduledCallback._cancelled` (23) by callback
number. -/
structure St where
  queue : List Nat := []
  cancelled : Nat → Bool := fun _ => false
  next : Nat := 0
  phase : Phase := .idle
  log : List Ev := []

inductive Act
  | schedule | scheduleLeft | cancel (i : Nat)
  | call | pop | drained | back | raise
  deriving DecidableEq, Repr

/-- `EventLoop.schedule`, _event_loop.py 65-70. -/
def schedule (s : St) : St :=
  { s with queue := s.queue ++ [s.next], next := s.next + 1, log := s.log ++ [.sched s.next] }

/-- `EventLoop.schedule_left`, _event_loop.py 72-77. -/
def scheduleLeft (s : St) : St :=
  { s with queue := s.next :: s.queue, next := s.next + 1, log := s.log ++ [.schedL s.next] }

/-- `ScheduledCallback.cancel`, _event_loop.py 28-29; only an existing callback can be cancelled. -/
def cancel (s : St) (i : Nat) : Option St :=
  if i < s.next then
    some { s with
      cancelled := fun j => if j = i then true else s.cancelled j
      log := s.log ++ [.cancel i] }
  else none

/-- One iteration of the inner loop, _event_loop.py 47-53: the leftmost callback is removed, and run
unless it is cancelled. -/
def pop (s : St) : Option St :=
  match s.queue with
  | [] => none
  | i :: q =>
    if s.cancelled i then some { s with queue := q, log := s.log ++ [.skip i] }
    else some { s with queue := q, log := s.log ++ [.run i] }

/-- The test of the outer loop, _event_loop.py 45: on with the inner loop, or return. -/
def outer (s : St) : St :=
  if s.queue = [] then { s with phase := .idle, log := s.log ++ [.ret] } else { s with phase := .loop }

/-- The steps. `call` enters `run()` (line 43), `drained` leaves the inner loop when the deque is
empty (46) for `run_bridge_threads()` (63), `back` returns from there to the outer test (45), `raise`
is an exception leaving a callback or a bridge thread, and so `run()`. -/
def exec (s : St) : Act → Option St
  | .schedule => some (schedule s)
  | .scheduleLeft => some (scheduleLeft s)
  | .cancel i => cancel s i
  | .call => if s.phase = .idle then some (outer s) else none
  | .pop => if s.phase = .loop then pop s else none
  | .drained => if s.phase = .loop ∧ s.queue = [] then some { s with phase := .bridge } else none
  | .back => if s.phase = .bridge then some (outer s) else none
  | .raise => if s.phase ≠ .idle then some { s with phase := .idle, log := s.log ++ [.exc] } else none

def run : St → List Act → Option St
  | s, [] => some s
  | s, a :: as => match exec s a with
    | some s' => run s' as
    | none => none

def Reach (s : St) : Prop := ∃ as, run {} as = some s

end Verif.Loop
