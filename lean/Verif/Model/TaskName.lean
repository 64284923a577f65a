import Verif.Py.Dec
/-!
# Names of tasks and their loggers (src/cocotb/task.py)

Classes are `none` for `Task` itself and `some k` for a class of the user that is derived from `Task`.
Simplification: no classes derived from those; names are texts (`set_name` converts other objects).
-/
namespace Verif.TaskName

/-- What a task has of names: `_name` and the cached `_log`, task.py:148, 201-203. -/
structure T where
  name : PyStr
  log : Option PyStr

/-- The attributes `_id_count` of the classes, task.py:95, all tasks in the order of creation, and the messages with task and logger. -/
structure St where
  base : Nat
  subs : Nat → Option Nat
  tasks : List T
  msgs : List (Nat × PyStr)

/-- At the start of the simulation. -/
def start : St := ⟨0, fun _ => none, [], []⟩

/-- `self._id_count`: that of the class, or the inherited one, task.py:146. -/
def count (s : St) : Option Nat → Nat
  | none => s.base
  | some k => (s.subs k).getD s.base

/-- `type(self)._id_count += 1`, task.py:147: sets the attribute of the class of the task. -/
def bump (s : St) : Option Nat → St
  | none => { s with base := s.base + 1 }
  | some k => { s with subs := fun j => if j = k then some (count s (some k) + 1) else s.subs j }

/-- The name without a given one, task.py:148. -/
def defaultName (n : Nat) : PyStr := "Task ".toList ++ decStr n

/-- What happens to tasks. -/
inductive Ev where
  | create (cls : Option Nat) (name : Option PyStr)
  | setName (k : Nat) (v : PyStr)
  | log (k : Nat)

/-- The name of a logger, task.py:203. -/
def loggerName (name : PyStr) : PyStr := "cocotb.task.".toList ++ name

/-- `_log`, a cached property, task.py:201-203. -/
def logger (t : T) : T × PyStr :=
  match t.log with
  | some l => (t, l)
  | none => ({ t with log := some (loggerName t.name) }, loggerName t.name)

/-- `set_name`, task.py:191-199. -/
def setName (t : T) (v : PyStr) : T := { t with log := none, name := v }

/-- One event: `Task.__init__` (task.py:146-148), `set_name`, a message of the task. Events of tasks that do not exist are ignored. -/
def step (s : St) : Ev → St
  | .create c n =>
    let name := match n with
      | some v => v
      | none => defaultName (count s c)
    { bump s c with tasks := s.tasks ++ [⟨name, none⟩] }
  | .setName k v => { s with tasks := s.tasks.modify k fun t => setName t v }
  | .log k =>
    match s.tasks[k]? with
    | none => s
    | some t => { s with tasks := s.tasks.set k (logger t).1, msgs := s.msgs ++ [(k, (logger t).2)] }

/-- A history. -/
def run (evs : List Ev) : St := evs.foldl step start

/-- `get_name` of the `k`-th task, task.py:183-189. -/
def getName (s : St) (k : Nat) : Option PyStr := (s.tasks[k]?).map T.name

end Verif.TaskName
