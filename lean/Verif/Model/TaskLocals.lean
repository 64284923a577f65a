import Verif.Py.Dict
/-!
# Variables of tasks: `Task.locals` and `current_task()` (src/cocotb/task.py)

What tasks run and in which order is an arbitrary history; which one is the current task at which moment is C74.
-/
namespace Verif.TaskLocals

/-- A task: the name space made in `Task.__init__`, task.py:143. The same name space may be kept by the user and used later. -/
abbrev Space := List (Nat × Int)

/-- All tasks in the order of creation, and `_current_task`, task.py:718. -/
structure St where
  tasks : List Space
  current : Option Nat

/-- At the start. -/
def start : St := ⟨[], none⟩

/-- What code does: names and values are numbers. `t` is `some k` for `task.locals` of the `k`-th task and `none` for
`current_task().locals`. -/
inductive Ev where
  | create
  | resume (k : Nat)
  | suspend
  | set (t : Option Nat) (x : Nat) (v : Int)
  | del (t : Option Nat) (x : Nat)
  | get (t : Option Nat) (x : Nat)

/-- The task whose variables are meant: `current_task()` raises RuntimeError without a current task, task.py:721-729. A task that does not
exist cannot be meant; it is treated the same. -/
def target (s : St) : Option Nat → PyM Nat
  | none =>
    match s.current with
    | some k => .ok k
    | none => .error .runtimeError
  | some k => if k < s.tasks.length then .ok k else .error .runtimeError

/-- `del d[x]`. -/
def remove : Space → Nat → Space
  | [], _ => []
  | (y, v) :: d, x => if y = x then d else (y, v) :: remove d x

/-- What an event gives: nothing, a value, or an exception. -/
abbrev Res := PyM (Option Int)

/-- One event: `Task.__init__` (task.py:143), `_resume` (task.py:344-345 and 452), `Task.locals` (task.py:154-181) with an access to the name space. -/
def step (s : St) : Ev → St × Res
  | .create => ({ s with tasks := s.tasks ++ [[]] }, .ok none)
  | .resume k => (if k < s.tasks.length then { s with current := some k } else s, .ok none)
  | .suspend => ({ s with current := none }, .ok none)
  | .set t x v =>
    match target s t with
    | .error e => (s, .error e)
    | .ok k => ({ s with tasks := s.tasks.modify k fun d => dictSet d x v }, .ok none)
  | .del t x =>
    match target s t with
    | .error e => (s, .error e)
    | .ok k =>
      match dictGet ((s.tasks[k]?).getD []) x with
      | none => (s, .error .attributeError)
      | some _ => ({ s with tasks := s.tasks.modify k fun d => remove d x }, .ok none)
  | .get t x =>
    match target s t with
    | .error e => (s, .error e)
    | .ok k =>
      match dictGet ((s.tasks[k]?).getD []) x with
      | none => (s, .error .attributeError)
      | some v => (s, .ok (some v))

/-- A history. -/
def run (evs : List Ev) : St := evs.foldl (fun s e => (step s e).1) start

end Verif.TaskLocals
