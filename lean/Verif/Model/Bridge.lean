import Verif.Model.Sched

/-!
Model of src/cocotb/_bridge.py: threads running blocking functions (`bridge`) that call coroutine
functions in the event loop (`resume`), with the part of src/cocotb/_event_loop.py that calls it.

The event-loop thread and the bridge threads are interleaved arbitrarily; a step is an access to the
state shared between threads (under the GIL, and under `cond` where the code takes it).

Simplifications:
  * Tasks are known only as far as they matter here: the task of a `resume` call, the task that awaits a
    bridged function, and everything else. A `resume` call's coroutine may end at any time while the
    event loop is running callbacks, after it was started.
  * A function's result and its exception are both an `Outcome` (src/cocotb/_outcomes.py).
  * Debug logging is omitted.
-/

namespace Verif.Bridge

open Sched (upd)

/-- `Value` or `Error` of src/cocotb/_outcomes.py. -/
inductive Outcome | value (v : Nat) | error (e : Nat)
  deriving DecidableEq, Repr

/-- `external_state`, _bridge.py 111-115. -/
inductive ExtState | init | running | paused | exited
  deriving DecidableEq, Repr

/-- Where a bridge thread is. -/
inductive Pos
  | absent
  /-- created, not started -/
  | fresh
  /-- running the bridged function's code -/
  | user
  /-- in `queue_function`, after line 229 and before line 233 -/
  | queued (r : Nat)
  /-- at `event.wait()`, line 235 -/
  | waiting (r : Nat)
  /-- after line 253, before line 254 -/
  | returned
  | dead
  deriving DecidableEq, Repr

/-- The task awaiting a bridged function, at line 266. -/
inductive Awaiter | none | waiting | scheduled | resumed | cancelled
  deriving DecidableEq, Repr

/-- `external_waiter`, _bridge.py 119-126, its thread and its awaiting task. -/
structure Ext where
  pos : Pos := .absent
  state : ExtState := .init
  outcome : Option Outcome := none
  awaiter : Awaiter := .none

/-- The task running `wrapper` of `queue_function`, _bridge.py 207-225. -/
inductive Stage | absent | scheduled | started | over
  deriving DecidableEq, Repr

/-- One call of `queue_function`: its thread, its task, `outcome` (205) and `event` (227). -/
structure Req where
  thread : Nat := 0
  stage : Stage := .absent
  outcome : Option Outcome := none
  event : Bool := false

/-- Callbacks in the event loop's deque. -/
inductive Item | other | wrapper (r : Nat) | awaiter (t : Nat)
  deriving DecidableEq, Repr

/-- Where the event-loop thread is. -/
inductive Main
  /-- the simulator has control -/
  | outside
  /-- in the inner loop of `EventLoop.run`, _event_loop.py 46-62 -/
  | loop
  /-- in `wrapper` of call `r`, before line 224 -/
  | resuming (r : Nat)
  /-- in `wrapper` of call `r`, before line 225 -/
  | setting (r : Nat)
  /-- at the head of the loop in `run_bridge_threads`, line 283, the iterator being at `k` -/
  | scan (k : Nat)
  /-- in `thread_wait` called on line 291 for `pending_threads[k]` -/
  | blocked (k : Nat)
  deriving DecidableEq, Repr

/-- What is observed. -/
inductive Ev
  /-- thread `t` called a `resume` function: call `r` -/
  | call (t r : Nat)
  /-- the coroutine of call `r` started, ended with `o` -/
  | start (r : Nat) | finish (r : Nat) (o : Outcome)
  /-- thread `t` got `o` out of call `r` -/
  | deliver (t r : Nat) (o : Outcome)
  /-- the function run by thread `t` ended with `o` -/
  | ret (t : Nat) (o : Outcome)
  /-- the task awaiting thread `t` got `o` -/
  | result (t : Nat) (o : Outcome)
  deriving DecidableEq, Repr

structure St where
  main : Main := .outside
  queue : List Item := []
  /-- `pending_threads`, line 189 -/
  pending : List Nat := []
  ext : Nat → Ext := fun _ => {}
  req : Nat → Req := fun _ => {}
  log : List Ev := []

inductive Act
  /-- the simulator calls back: some callbacks are scheduled and the event loop is run -/
  | enter (n : Nat)
  /-- the inner loop takes the next callback / ends -/
  | pop | drained
  /-- running code schedules another callback -/
  | sched
  /-- running code awaits a bridged function, run by thread `t` -/
  | bridge (t : Nat)
  /-- the task awaiting `t` is cancelled -/
  | cancelAwaiter (t : Nat)
  /-- the coroutine of call `r` ends; its task ends with an exception that is not caught there; it is
  cancelled before it was started -/
  | finish (r : Nat) (o : Outcome) | bubble (r : Nat) | cancelReq (r : Nat)
  /-- the next step of `wrapper` of `queue_function` or of `run_bridge_threads` -/
  | next
  /-- steps of thread `t`: it calls a `resume` function, sets its state, wakes up, ends its function,
  ends -/
  | call (t r : Nat) | suspend (t : Nat) | wake (t : Nat) | ret (t : Nat) (o : Outcome) | done (t : Nat)
  deriving DecidableEq, Repr

def St.setExt (s : St) (t : Nat) (e : Ext) : St := { s with ext := upd s.ext t e }
def St.setReq (s : St) (r : Nat) (q : Req) : St := { s with req := upd s.req r q }
def St.addLog (s : St) (e : Ev) : St := { s with log := s.log ++ [e] }

/-- The outer loop of `EventLoop.run`, _event_loop.py 45. -/
def outer (s : St) : St :=
  { s with main := if s.queue = [] then .outside else .loop }

/-- A callback is taken from the deque and run, _event_loop.py 48-53. -/
def runItem (s : St) : Item → St
  | .other => s
  | .wrapper r =>
    if (s.req r).stage = .scheduled then
      (s.setReq r { s.req r with stage := .started }).addLog (.start r)
    else s
  | .awaiter t =>
    match (s.ext t).awaiter, (s.ext t).outcome with
    -- `return waiter.result`, _bridge.py 268 and 128-132
    | .scheduled, some o => (s.setExt t { s.ext t with awaiter := .resumed }).addLog (.result t o)
    | _, _ => s

/-- `thread_start`, _bridge.py 150-156. -/
def threadStart (s : St) (t : Nat) : St :=
  if (s.ext t).state = .init then s.setExt t { s.ext t with state := .running, pos := .user } else s

/-- `ext.event.set()`, line 300. -/
def setEvent (s : St) (t : Nat) : St :=
  if (s.ext t).awaiter = .waiting then
    { s.setExt t { s.ext t with awaiter := .scheduled } with queue := s.queue ++ [.awaiter t] }
  else s

/-- The rest of a turn of the loop in `run_bridge_threads`, lines 291-300, when `thread_wait`
(161-186) is over. The iterator goes on to the next position of the list as it then is. -/
def afterWait (s : St) (k t : Nat) : St :=
  if (s.ext t).state = .exited then
    setEvent { s with pending := s.pending.erase t, main := .scan (k + 1) } t
  else { s with main := .scan (k + 1) }

/-- One step; `none` if it is not possible. -/
def exec (s : St) : Act → Option St
  | .enter n =>
    if s.main = .outside then
      some (outer { s with queue := s.queue ++ List.replicate n .other })
    else none
  | .pop =>
    match s.main, s.queue with
    | .loop, i :: q => some (runItem { s with queue := q } i)
    | _, _ => none
  | .drained => if s.main = .loop ∧ s.queue = [] then some { s with main := .scan 0 } else none
  | .sched => if s.main = .loop then some { s with queue := s.queue ++ [.other] } else none
  -- `wrapper` of `run_in_executor`, lines 256-266
  | .bridge t =>
    if s.main = .loop ∧ (s.ext t).pos = .absent then
      some { s.setExt t { pos := .fresh, awaiter := .waiting } with pending := s.pending ++ [t] }
    else none
  | .cancelAwaiter t =>
    if s.main = .loop ∧ ((s.ext t).awaiter = .waiting ∨ (s.ext t).awaiter = .scheduled) then
      some (s.setExt t { s.ext t with awaiter := .cancelled })
    else none
  -- lines 210-217
  | .finish r o =>
    if s.main = .loop ∧ (s.req r).stage = .started then
      some (St.addLog { s.setReq r { s.req r with stage := .over, outcome := some o } with
        main := .resuming r } (.finish r o))
    else none
  -- lines 212-215
  | .bubble r =>
    if s.main = .loop ∧ (s.req r).stage = .started then
      some (s.setReq r { s.req r with stage := .over })
    else none
  -- `Task.cancel` of a task that was not started: the coroutine's code is not entered
  | .cancelReq r =>
    if s.main = .loop ∧ (s.req r).stage = .scheduled then
      some (s.setReq r { s.req r with stage := .over })
    else none
  | .next =>
    match s.main with
    -- `thread_resume`, lines 224 and 158-159
    | .resuming r =>
      some { s.setExt (s.req r).thread { s.ext (s.req r).thread with state := .running } with
        main := .setting r }
    -- `event.set()`, line 225
    | .setting r => some { s.setReq r { s.req r with event := true } with main := .loop }
    -- lines 283-284
    | .scan k =>
      match s.pending[k]? with
      | some t => some { threadStart s t with main := .blocked k }
      | none => some (outer s)
    -- lines 161-186: only when the condition holds
    | .blocked k =>
      match s.pending[k]? with
      | some t => if (s.ext t).state = .running then none else some (afterWait s k t)
      | none => none
    | _ => none
  -- `queue_function`, lines 192-229
  | .call t r =>
    if (s.ext t).pos = .user ∧ (s.req r).stage = .absent then
      if t ∈ s.pending then
        some (St.addLog { (s.setReq r { thread := t, stage := .scheduled }).setExt t
          { s.ext t with pos := .queued r } with queue := s.queue ++ [.wrapper r] } (.call t r))
      -- lines 198-199: the thread goes on with an exception
      else some s
    else none
  -- `thread_suspend`, lines 233 and 147-148
  | .suspend t =>
    match (s.ext t).pos with
    | .queued r => some (s.setExt t { s.ext t with pos := .waiting r, state := .paused })
    | _ => none
  -- lines 235-237
  | .wake t =>
    match (s.ext t).pos with
    | .waiting r =>
      match (s.req r).event, (s.req r).outcome with
      | true, some o => some ((s.setExt t { s.ext t with pos := .user }).addLog (.deliver t r o))
      | _, _ => none
    | _ => none
  -- lines 252-253
  | .ret t o =>
    if (s.ext t).pos = .user then
      some ((s.setExt t { s.ext t with pos := .returned, outcome := some o }).addLog (.ret t o))
    else none
  -- `thread_done`, lines 254 and 142-145
  | .done t =>
    if (s.ext t).pos = .returned then
      some (s.setExt t { s.ext t with pos := .dead, state := .exited })
    else none

def run : St → List Act → Option St
  | s, [] => some s
  | s, a :: as => match exec s a with
    | some s' => run s' as
    | none => none

/-- States reached in some interleaving. -/
def Reach (s : St) : Prop := ∃ as, run {} as = some s

end Verif.Bridge
