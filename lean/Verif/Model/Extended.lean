import Verif.Model.Wait
import Verif.Spec.Extended

/-!
Model of src/cocotb/_extended_awaitables.py: `Combine`, `First`, `ClockCycles` and `with_timeout`, on
top of the model of `wait`/`select` (Model/Wait.lean).

Simplification: deprecation warnings and `__repr__` are omitted.
-/

namespace Verif.Ext

open Sched ExtSpec

/-- `ClockCycles._wait`, _extended_awaitables.py 282-286, run by a task: `n` is the number of cycles,
`g` the edge trigger and `v` the object itself.  `Trigger.__await__` (_base_triggers.py 111-113) yields
the trigger and lets an exception thrown in pass. With `n = 1` this is also the coroutine of a task
waiting for a single trigger (_concurrent_waiters.py 129, task.py 116-124). -/
def loop (g : Trig) (n v : Nat) : Prog := fun rs =>
  match rs.getLast? with
  | some (some e) => .raise e
  | _ => if rs.length ≤ n then .await g else .ret v

/-- `range(num_cycles)` makes no turn for a negative number, _extended_awaitables.py 284. -/
def clockCycles (g : Trig) (numCycles : Int) (v : Nat) : Prog := loop g numCycles.toNat v

/-- The edge trigger classes. -/
inductive Edge | rising | falling | valueChange
  deriving DecidableEq, Repr

/-- The argument `edge_type`: a class or, as in earlier versions, a boolean. -/
inductive EdgeArg | cls (e : Edge) | bool (b : Bool)
  deriving DecidableEq, Repr

/-- `ClockCycles.__init__`, _extended_awaitables.py 240-263; `none` is a `TypeError`. -/
def edgeType (edge : Option EdgeArg) (rising : Option Bool) : Option Edge :=
  match edge, rising with
  | some _, some _ => none
  | some (.bool true), none => some .rising
  | some (.bool false), none => some .falling
  | some (.cls e), none => some e
  | none, some true => some .rising
  | none, some false => some .falling
  | none, none => some .rising

/-- The kinds of objects passed to `Combine` and `First`. -/
inductive Arg | task | trigger | waitable | other
  deriving DecidableEq, Repr

inductive Err | typeError | valueError
  deriving DecidableEq, Repr

/-- `Combine.__init__`, _extended_awaitables.py 77-90. -/
def combineNew (as : List Arg) : Option Err :=
  if as.any (· = .other) then some .typeError else none

/-- `First.__init__`, _extended_awaitables.py 166-182. -/
def firstNew (as : List Arg) : Option Err :=
  if as = [] then some .valueError
  else if as.any (· = .other) then some .typeError else none

/-- What the awaiter gets: an object, or an exception. -/
inductive Answer
  /-- the awaited object itself -/
  | self
  | value (q : Query)
  | raises (e : Exc)
  | simTimeoutError
  deriving DecidableEq, Repr

/-- `task.result()`, seen by its caller. -/
def answer : Query → Answer
  | .raises e => .raises e
  | q => .value q

/-- The mode in which `Combine._wait` calls `_wait`, line 97. -/
def combineMode : Wait.Mode := .firstException

/-- The mode in which `First._wait` calls `_wait`, line 186. -/
def firstMode : Wait.Mode := .firstCompleted

/-- The trigger awaited by an empty `Combine`, _extended_awaitables.py 93-94. -/
def combineEmpty (v : Nat) : Prog := loop (.null 0) 1 v

/-- `Combine._wait`, _extended_awaitables.py 95-102, once the call of `_wait` is over. -/
def combineResult (s : Wait.WS) : Option Answer :=
  match s.phase with
  | .returned none => some .self
  | .returned (some i) =>
    match (s.waiters[i]?).map (fun t => answer (s.w.result t)) with
    | some (.raises e) => some (.raises e)
    | _ => some .self
  | .raised e => some (.raises e)
  | _ => none

/-- `First._wait`, _extended_awaitables.py 184-189. -/
def firstResult (s : Wait.WS) : Option Answer :=
  match s.phase with
  | .returned (some i) => (s.waiters[i]?).map (fun t => answer (s.w.result t))
  | .raised e => some (.raises e)
  | _ => none

/-- `with_timeout`, _extended_awaitables.py 356-362, on top of `select` (_concurrent_waiters.py
244-246), whose `result()` is evaluated first. -/
def withTimeout (s : Wait.WS) : Option Answer :=
  match s.phase with
  | .raised e => some (.raises e)
  | _ =>
    match Wait.selectResult s with
    | some (_, .raises e) => some (.raises e)
    | some (0, _) => some .simTimeoutError
    | some (_, q) => some (.value q)
    | none => none

end Verif.Ext
