import Verif.Model.Sched
import Verif.Py.Heapq

/-!
Model of src/cocotb/queue.py on top of the scheduler model: one queue used by any number of tasks.

The events a queue creates for its waiters are private to it. They are numbered apart from the
events of other code: the `k`-th one is event `2 * k + 1` of the scheduler model, and other code
uses even numbers only. Each call of `put`, `get`, `put_nowait` or `get_nowait` gets a number, so
that the log tells which call inserted or removed which item.
-/

namespace Verif.Queue

open Sched

/-- `Queue` (queue.py 172-189), `LifoQueue` (228-245), `PriorityQueue` (205-225). -/
inductive Kind | fifo | lifo | prio
  deriving DecidableEq, Repr

/-- A `put` or `get` call that is waiting. -/
inductive Op (α : Type)
  | put (call : Nat) (x : α)
  | get (call : Nat)
  deriving DecidableEq, Repr

/-- A call of `put`/`put_nowait` or `get`/`get_nowait` began; call `c` inserted or removed an item,
or ended with an exception. -/
inductive Obs (α : Type)
  | startPut (call : Nat) (x : α)
  | startGet (call : Nat)
  | put (call : Nat) (x : α)
  | got (call : Nat) (x : α)
  | raised (call : Nat)
  deriving DecidableEq, Repr

/-- `AbstractQueue.__init__` (queue.py 51-58) with the item storage of the subclass, next to the
scheduler's state. -/
structure QW (α : Type) where
  w : World := {}
  kind : Kind
  maxsize : Int
  items : List α := []
  /-- `_getters`, `_putters`: pairs of event and task -/
  getters : List (Nat × Nat) := []
  putters : List (Nat × Nat) := []
  /-- how many private events have been created -/
  nEv : Nat := 0
  /-- the call a task is waiting in -/
  op : Nat → Option (Op α) := fun _ => none
  nCall : Nat := 0
  log : List (Obs α) := []

variable {α : Type} (lt : α → α → Bool)

/-- `AbstractQueue.full`, queue.py 114-124. -/
def full (s : QW α) : Bool := if s.maxsize ≤ 0 then false else decide ((s.items.length : Int) ≥ s.maxsize)

/-- `AbstractQueue.empty`, queue.py 110-112. -/
def empty (s : QW α) : Bool := decide (s.items.length = 0)

/-- `_put` of the three classes, queue.py 179-180, 235-236, 215-216. -/
def putItem (k : Kind) (items : List α) (x : α) : List α :=
  match k with
  | .fifo => items ++ [x]
  | .lifo => items ++ [x]
  | .prio => Py.Heapq.heappush lt items x

/-- `_get` of the three classes, queue.py 182-183, 238-239, 218-219; `none` is `IndexError`. -/
def getItem (k : Kind) (items : List α) : Option (α × List α) :=
  match k with
  | .fifo => match items with
    | [] => none
    | x :: rest => some (x, rest)
  | .lifo => match items.getLast? with
    | none => none
    | some x => some (x, items.dropLast)
  | .prio => Py.Heapq.heappop lt items

/-- `_wakeup_next`, queue.py 76-83. -/
def wakeupNext (w : World) : List (Nat × Nat) → World × List (Nat × Nat)
  | [] => (w, [])
  | (e, t) :: rest => if w.done t then wakeupNext w rest else (setEvent w e, rest)

/-- `put_nowait`, queue.py 138-146, as call `c`; `none` is `QueueFull`. -/
def putNowait (s : QW α) (c : Nat) (x : α) : Option (QW α) :=
  if full s then none
  else
    let p := wakeupNext s.w s.getters
    some { s with
      items := putItem lt s.kind s.items x
      w := p.1
      getters := p.2
      log := s.log ++ [.put c x] }

/-- `get_nowait`, queue.py 159-169, as call `c`; `none` is `QueueEmpty`. -/
def getNowait (s : QW α) (c : Nat) : Option (α × QW α) :=
  if empty s then none
  else match getItem lt s.kind s.items with
    | none => none
    | some (x, rest) =>
      let p := wakeupNext s.w s.putters
      some (x, { s with
        items := rest
        w := p.1
        putters := p.2
        log := s.log ++ [.got c x] })

/-- `Event()` and `await event.wait()` (queue.py 133-135 and 154-156) by the running task `t`, after
the event and the current task have been put in the line of waiters. -/
def block (s : QW α) (t : Nat) (o : Op α) : Option (QW α) :=
  match exec s.w (.await (.event (2 * s.nEv + 1)) false) with
  | none => none
  | some (w', _) => some { s with
      w := w'
      nEv := s.nEv + 1
      op := upd s.op t (if (w'.task t).state = .pending then some o else none) }

def Op.call : Op α → Nat
  | .put c _ => c
  | .get c => c

/-- The call of task `t` ends with an exception, which goes on into the code of `t`. -/
def raiseOut (s : QW α) (t : Nat) (o : Op α) : QW α :=
  { s with op := upd s.op t none, log := s.log ++ [.raised o.call] }

/-- The loops of `put` (queue.py 132-136) and `get` (153-157), executed by running task `t`.
`current_task()` (queue.py 134, 155) raises when there is no current task, task.py 727-728. -/
def loop (s : QW α) (t : Nat) (o : Op α) : Option (QW α) :=
  match o with
  | .put c x =>
    if full s then
      match s.w.current with
      | none => some (raiseOut s t o)
      | some u => block { s with putters := s.putters ++ [(2 * s.nEv + 1, u)] } t o
    else putNowait lt { s with op := upd s.op t none } c x
  | .get c =>
    if empty s then
      match s.w.current with
      | none => some (raiseOut s t o)
      | some u => block { s with getters := s.getters ++ [(2 * s.nEv + 1, u)] } t o
    else (getNowait lt { s with op := upd s.op t none } c).map (·.2)

inductive QAct (α : Type)
  /-- anything other code does -/
  | sched (a : Act)
  | put (x : α) | get
  | putNowait (x : α) | getNowait

/-- Other code does not touch the queue's private events. -/
def foreign : Act → Bool
  | .setE e => e % 2 == 0
  | .clearE e => e % 2 == 0
  | .await (.event e) _ => e % 2 == 0
  | _ => true

/-- Actions that enter a coroutine. -/
def resumes : Act → Bool
  | .pop => true
  | .cancelNow _ => true
  | _ => false

/-- After a coroutine was entered: if it was waiting inside `put` or `get`, that call goes on, or
passes on the exception thrown into it. -/
def continueOp (s : QW α) : Option (QW α) :=
  match s.w.stack with
  | .running t :: _ =>
    match s.op t with
    | none => some s
    | some o =>
      if (s.w.task t).exc = none then loop lt s t o else some (raiseOut s t o)
  | _ => some s

/-- Code may run: control is inside Python and the simulation has not been abandoned. -/
def active (w : World) : Bool := w.inside && !w.halted

/-- A new call begins. -/
def begin (s : QW α) (o : Obs α) : QW α := { s with nCall := s.nCall + 1, log := s.log ++ [o] }

/-- `QueueFull`/`QueueEmpty` is raised to the caller of call `c`. -/
def refuse (s : QW α) (c : Nat) : QW α := { s with log := s.log ++ [.raised c] }

/-- One step: other code, or a method of the queue called by the innermost executing code (`put` and
`get` are coroutines, so their caller is a task; the `_nowait` methods may also be called from done
callbacks). -/
def exec (s : QW α) : QAct α → Option (QW α)
  | .sched a =>
    if foreign a then
      match Sched.exec s.w a with
      | none => none
      | some (w', _) =>
        if resumes a then continueOp lt { s with w := w' } else some { s with w := w' }
    else none
  | .put x =>
    if active s.w then
      match s.w.stack with
      | .running t :: _ => loop lt (begin s (.startPut s.nCall x)) t (.put s.nCall x)
      | _ => none
    else none
  | .get =>
    if active s.w then
      match s.w.stack with
      | .running t :: _ => loop lt (begin s (.startGet s.nCall)) t (.get s.nCall)
      | _ => none
    else none
  | .putNowait x =>
    if active s.w then
      match putNowait lt (begin s (.startPut s.nCall x)) s.nCall x with
      | none => some (refuse (begin s (.startPut s.nCall x)) s.nCall)
      | some s' => some s'
    else none
  | .getNowait =>
    if active s.w then
      match getNowait lt (begin s (.startGet s.nCall)) s.nCall with
      | none => some (refuse (begin s (.startGet s.nCall)) s.nCall)
      | some (_, s') => some s'
    else none

def run : QW α → List (QAct α) → Option (QW α)
  | s, [] => some s
  | s, a :: as => match exec lt s a with
    | some s' => run s' as
    | none => none

/-- A new queue, before anything has happened. -/
def new (k : Kind) (maxsize : Int) : QW α := { kind := k, maxsize := maxsize }

end Verif.Queue
