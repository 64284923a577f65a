import Verif.Py.Int
/-!
# Tracebacks of exceptions that end tasks (src/cocotb/task.py, src/cocotb/_utils.py)

Python keeps with an exception object the frames it has left, the last one first: each frame an exception leaves or is
caught in is put in front of the `__traceback__` the object has at that time, also if the object has been raised before.
An exception object is a number, a frame its function's name and a line. What the user's code does is given: through which
frames an exception leaves it.
-/
namespace Verif.Tracebacks

abbrev Exc := Nat
abbrev Task := Nat

/-- A frame of a traceback. -/
structure Frame where
  name : PyStr
  line : Nat
  deriving DecidableEq, Repr

/-- `__traceback__` of all exception objects; `[]` is `None`. -/
abbrev Heap := Exc → List Frame

/-- An exception leaves the frames `fs` (outermost first). -/
def unwind (fs : List Frame) (e : Exc) (h : Heap) : Heap := fun x => if x = e then fs ++ h x else h x

/-- `remove_traceback_frames` of a traceback, _utils.py:81-87; `none` is an AssertionError, or an AttributeError if there
is no traceback. -/
def removeTb : List PyStr → List Frame → Option (List Frame)
  | [], tb => some tb
  | _ :: _, [] => none
  | n :: ns, f :: tb => if f.name = n then removeTb ns tb else none

/-- `remove_traceback_frames` of an exception: changes the object. _utils.py:68-75. -/
def remove (ns : List PyStr) (e : Exc) (h : Heap) : Option Heap :=
  (removeTb ns (h e)).map fun tb => fun x => if x = e then tb else h x

/-- The kinds of exceptions `_resume` tells apart. task.py:366-412. -/
inductive Kind where
  /-- KeyboardInterrupt, SystemExit, BdbQuit. -/
  | fatal
  | cancelled
  | other
  deriving DecidableEq, Repr

/-- How `self._coro.send` or `self._coro.throw` ends: with a value, with an exception that leaves the frames `fs` of the
user's coroutine, with something that is not a trigger, or with a trigger whose registration raises or does not. -/
inductive Exit where
  | value
  | left (k : Kind) (e : Exc) (fs : List Frame)
  | noTrigger
  | refused (e : Exc) (fs : List Frame)
  | pending
  deriving DecidableEq, Repr

/-- What becomes of the task: it ends with a value or with an exception object, is resumed with an exception, or waits.
`raised` tells that the exception also leaves `_resume`. -/
inductive Result where
  | finished
  | errored (e : Exc) (raised : Bool)
  | cancelled (e : Exc)
  | resumed (e : Exc)
  | waits
  | assertion
  deriving DecidableEq, Repr

/-- `"_resume"`. -/
def resumeName : PyStr := "_resume".toList

/-- `Task._resume`, task.py:342-452: `line` is the line the frame of `_resume` has in the traceback, `new` an exception
object that did not exist (the RuntimeError or TypeError made here, which is not raised and has no traceback). -/
def resume (mustCancel : Bool) (line : Nat) (new : Exc) (x : Exit) (h : Heap) : Result × Heap :=
  let me : Frame := ⟨resumeName, line⟩
  match x with
  | .value => if mustCancel then (.errored new false, h) else (.finished, h)
  | .left k e fs =>
    let h := unwind (me :: fs) e h
    match k with
    | .fatal =>
      match remove [resumeName] e h with
      | none => (.assertion, h)
      | some h => (.errored e true, h)
    | .cancelled =>
      match remove [resumeName] e h with
      | none => (.assertion, h)
      | some h => (.cancelled e, h)
    | .other =>
      if mustCancel then (.errored new false, h)
      else match remove [resumeName] e h with
        | none => (.assertion, h)
        | some h => (.errored e false, h)
  | .noTrigger => if mustCancel then (.errored new false, h) else (.resumed new, h)
  | .refused e fs =>
    if mustCancel then (.errored new false, h)
    else
      let h := unwind (me :: fs) e h
      match remove [resumeName] e h with
      | none => (.assertion, h)
      | some h => (.resumed e, h)
  | .pending => if mustCancel then (.errored new false, h) else (.waits, h)

/-- Where an exception that leaves a task comes from: a new object, or what `result()` of another task raised (by `await
task`, or a call), task.py:646-662 and 695-700. -/
inductive Src where
  | new (e : Exc)
  | of (u : Task)
  deriving DecidableEq, Repr

/-- What happens: the coroutine of a task is left by an exception through the frames `fs`, or some code calls `result()`
of a task and catches what it raises after it left the frames `fs`. -/
inductive Op where
  | leave (t : Task) (k : Kind) (src : Src) (fs : List Frame)
  | look (u : Task) (fs : List Frame)
  deriving DecidableEq, Repr

/-- The exceptions tasks ended with, and all tracebacks. -/
structure St where
  out : Task → Option Exc := fun _ => none
  tb : Heap := fun _ => []

/-- The exception that leaves. -/
def Src.exc (s : St) : Src → Option Exc
  | .new e => some e
  | .of u => s.out u

/-- One step: `_set_outcome` with what `resume` gives (no cancellation is under way), or the raise in `result()`.
task.py:305-319. -/
def step (s : St) : Op → St
  | .leave t k src fs =>
    match src.exc s with
    | none => s
    | some e =>
      match resume false 0 0 (.left k e fs) s.tb with
      | (.errored x _, h) | (.cancelled x, h) => { out := fun y => if y = t then some x else s.out y, tb := h }
      | (_, h) => { s with tb := h }
  | .look u fs =>
    match s.out u with
    | none => s
    | some e => { s with tb := unwind fs e s.tb }

/-- A history. -/
def run (ops : List Op) : St := ops.foldl step {}

end Verif.Tracebacks
