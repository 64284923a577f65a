import Verif.Py.Int
/-!
# Printing tasks and what they wait for (src/cocotb/task.py, src/cocotb/_utils.py, src/cocotb/_concurrent_waiters.py,
src/cocotb/_extended_awaitables.py)
-/
namespace Verif.TaskRepr
open Verif

/-- One object in the chain a coroutine awaits (`cr_await`): a coroutine with the function name of its frame, which is absent
when the coroutine has finished, or an object that is no coroutine, such as the generator of a trigger's `__await__`. -/
inductive Link where
  | coro (frame : Option PyStr)
  | other
  deriving DecidableEq, Repr

/-- `walk_coro_stack`: the function names of the frames, outermost first. _utils.py:90-110. -/
def walk : List Link → List PyStr
  | [] => []
  | .other :: _ => []
  | .coro none :: l => walk l
  | .coro (some f) :: l => f :: walk l

/-- `Task._get_coro_stack` for a native coroutine. task.py:209-230, _utils.py:113-135. -/
def coroStack (l : List Link) : List PyStr :=
  let s := walk l
  if s.getLast? = some "__await__".toList then s.dropLast else s

/-- What is awaited: something whose text does not mention tasks, `TaskComplete` of a task, a task, or `gather`, `select`, `wait`,
`Combine` or `First` of such things. -/
inductive Obj where
  | leaf (text : PyStr)
  | join (task : Nat)
  | task (id : Nat)
  | group (name : PyStr) (os : List Obj)

/-- The state of a task, task.py:60-90, with what `__repr__` shows of it: the text of the outcome or the trigger waited for. -/
inductive State where
  | unstarted
  | scheduled
  | running
  | pending (trigger : Obj)
  | finished (outcome : PyStr)
  | errored (outcome : PyStr)
  | cancelled (outcome : PyStr)

/-- A task: `native` tells that its coroutine is a native one, `chain` is what that coroutine awaits, itself first, `coroName` is its
`__name__`, if it has one, and `typeName` the name of its type. -/
structure Info where
  name : PyStr
  native : Bool
  chain : List Link
  coroName : Option PyStr
  typeName : PyStr
  state : State

/-- The name shown for the coroutine, task.py:232-246. -/
def shownCoro (i : Info) : PyStr :=
  if i.native then
    match (coroStack i.chain).getLast? with
    | some n => n
    | none => match i.coroName with
      | some n => n
      | none => i.typeName
  else i.typeName

mutual
/-- `repr` of what is awaited, given the texts of tasks: task.py:205-207 and 763-764, _concurrent_waiters.py:241-242 and 298-299,
_extended_awaitables.py:104-110 and 191-197. -/
def reprObj (names : Nat → PyStr) (T : Nat → Option PyStr) : Obj → Option PyStr
  | .leaf t => some t
  | .join u => some ("TaskComplete(<".toList ++ names u ++ ">)".toList)
  | .task u => T u
  | .group n os => match reprObjs names T os with
    | some t => some (n ++ ['('] ++ t ++ [')'])
    | none => none

/-- `", ".join(repr(a) for a in …)`. -/
def reprObjs (names : Nat → PyStr) (T : Nat → Option PyStr) : List Obj → Option PyStr
  | [] => some []
  | [o] => reprObj names T o
  | o :: os => match reprObj names T o with
    | none => none
    | some t => match reprObjs names T os with
      | none => none
      | some ts => some (t ++ ", ".toList ++ ts)
end

/-- `repr(task)` with a bound on the depth of calls; `none` if it is not enough. task.py:232-268. -/
def reprTask (g : Nat → Info) : Nat → Nat → Option PyStr
  | 0, _ => none
  | n + 1, t =>
    let i := g t
    let head (word : String) := ['<'] ++ i.name ++ [' '] ++ word.toList ++ " coro=".toList ++ shownCoro i
    match i.state with
    | .running => some (head "running" ++ "()>".toList)
    | .finished o => some (head "finished" ++ "() outcome=".toList ++ o ++ ['>'])
    | .errored o => some (head "error" ++ "() outcome=".toList ++ o ++ ['>'])
    | .pending trig => match reprObj (fun u => (g u).name) (reprTask g n) trig with
      | some s => some (head "pending" ++ "() trigger=".toList ++ s ++ ['>'])
      | none => none
    | .scheduled => some (head "scheduled" ++ "()>".toList)
    | .unstarted => some (head "created" ++ "()>".toList)
    | .cancelled o => some (head "cancelled" ++ " with=".toList ++ o)

end Verif.TaskRepr
