import Verif.Model.Env
/-!
# The embedded Python interpreter (src/cocotb/share/lib/pygpi/embed.cpp, `handle_gpi_callback` and
`set_sim_event_callback` of src/cocotb/share/lib/pygpi/bind.cpp, the macros `c_to_python` and `python_to_c` of
src/cocotb/share/lib/pygpi/pygpi_priv.hpp) and the environment variables read by the native part
(`gpi_init_logging_and_debug` of src/cocotb/share/lib/gpi/GpiCommon.cpp)

What can be seen of a run is a list of events. Left out: log messages, with the exception of the one of a failed event
function; the comparison of `sys.executable` with the path (embed.cpp:152-171), which only logs; the global
interpreter lock; reference counts. Calls of Python code have two steps, the call and the return, so that anything can
happen while Python code runs.
-/
namespace Verif.Embed
open Verif

/-! ### Environment variables -/

/-- `PATH_MAX` of Linux. -/
def pathMax : Nat := 4096

/-- `wcsncpy(path, t, n)`: the first `n` characters, filled up with zeros. embed.cpp:60. -/
def wcsncpy (n : Nat) (t : Text) : Text := t.take n ++ List.replicate (n - t.length) 0

/-- The text in an array that ends with a zero. -/
def wcs (buf : Text) : Text := buf.takeWhile (· != 0)

/-- `get_interpreter_path`, embed.cpp:37-70. The variable is unset (`none`), cannot be decoded (`some none`), or is
decoded to a text. The array has `pathMax` elements (embed.cpp:107). -/
def interpreterPath : Option (Option Text) → Option Text
  | none => none
  | some none => none
  | some (some t) => if (wcsncpy pathMax t)[pathMax - 1]?.getD 0 ≠ 0 then none else some (wcs (wcsncpy pathMax t))

/-- `pygpi_init_debug`, embed.cpp:72-82, and the first part of `gpi_init_logging_and_debug`, GpiCommon.cpp:285-292:
whether the variable switches debugging on. 48 is `0`. -/
def debugOn : Option Text → Bool
  | none => false
  | some v => v != [48]

/-- The table of `gpi_init_logging_and_debug`, GpiCommon.cpp:296-300, with the numbers of gpi.h:527-543. -/
def levelTable : List (String × Nat) :=
  [("CRITICAL", 50), ("ERROR", 40), ("WARNING", 30), ("INFO", 20), ("DEBUG", 10), ("TRACE", 5)]

/-- The second part of `gpi_init_logging_and_debug`, GpiCommon.cpp:294-309: the level of the native logger, `now` before
the call. -/
def nativeLevel (now : Nat) : Option Text → Nat
  | none => now
  | some v =>
    match levelTable.find? fun p => ofStr p.1.toList == v with
    | some p => p.2
    | none => now

/-- `str.upper` of one character; beyond ASCII a parameter. -/
def upperChar (up : Nat → Text) (c : Nat) : Text :=
  if c < 128 then (if 97 ≤ c ∧ c ≤ 122 then [c - 32] else [c]) else up c

/-- `s.upper()`. -/
def upperText (up : Nat → Text) (t : Text) : Text := (t.map (upperChar up)).flatten

/-- The names known to `logging`: the ones of the standard library, and `TRACE` (cocotb/logging.py:42-43). -/
def pyLevels : List (String × Nat) :=
  [("CRITICAL", 50), ("FATAL", 50), ("ERROR", 40), ("WARN", 30), ("WARNING", 30), ("INFO", 20), ("DEBUG", 10),
    ("TRACE", 5), ("NOTSET", 0)]

/-- `set_level` of `_init`, cocotb/logging.py:158-174: the level of the Python logger, `now` before the call. -/
def pyLevel (up : Nat → Text) (now : Nat) (value : Option Text) : PyM Nat :=
  let v := upperText up (stripText (value.getD []))
  if v = [] then .ok now
  else
    match pyLevels.find? fun p => ofStr p.1.toList == v with
    | some p => .ok p.2
    | none => .error .valueError

/-- C's `isspace`. -/
def cSpace (c : Nat) : Bool := (9 ≤ c && c ≤ 13) || c == 32

/-- C's `isdigit`. -/
def cDigit (c : Nat) : Bool := 48 ≤ c && c ≤ 57

/-- The value of digits. -/
def digitsValue (ds : Text) : Nat := ds.foldl (fun n d => 10 * n + (d - 48)) 0

/-- C's `strtoul(t, NULL, 10)` with 64 bits: the number, and whether `errno` is set to `ERANGE`. -/
def strtoul (t : Text) : Nat × Bool :=
  let t := t.dropWhile cSpace
  let neg := t.head? = some 45
  let t := if t.head? = some 45 ∨ t.head? = some 43 then t.tail else t
  let n := digitsValue (t.takeWhile cDigit)
  if 2 ^ 64 ≤ n then (2 ^ 64 - 1, true) else (if neg then (2 ^ 64 - n) % 2 ^ 64 else n, false)

/-- The pause of `initialize`, embed.cpp:177-204, for the value of `COCOTB_ATTACH`. `erange` says that `errno` is
`ERANGE` before the call of `strtoul`, which does not clear it. `UINT_MAX` is 2³² - 1. -/
def attachPause (erange : Bool) : Option Text → Option Nat
  | none => none
  | some v =>
    let (n, e) := strtoul v
    if (erange || e) = true ∨ 2 ^ 32 - 1 ≤ n then none else if n = 0 then none else some n

/-! ### The interpreter -/

/-- What `initialize` finds: the environment, the results of `PyConfig_SetArgv` and `Py_InitializeFromConfig`, and
`errno`. -/
structure World where
  bin : Option (Option Text)
  argvOk : Bool
  initOk : Bool
  debug : Option Text
  attach : Option Text
  erange : Bool
  deriving DecidableEq

/-- How Python code ends. -/
inductive Res where
  /-- It returns. -/
  | ok
  /-- It raises SystemExit. -/
  | sysExit
  /-- It raises another exception. -/
  | exc
  deriving DecidableEq, Repr

/-- The calls of Python code: `load_entry`, the event function, a callback. -/
inductive Frame where
  | load
  | event (fn : Nat)
  | callback (fn : Nat)
  deriving DecidableEq, Repr

/-- What can be seen. -/
inductive Ev where
  /-- Python is started with this path. -/
  | started (path : Text)
  /-- The functions for start, end and clean-up are registered with the GPI. -/
  | hooked
  /-- A pause, in seconds. -/
  | paused (n : Nat)
  /-- Python code is called; whether the error indicator is set at this point. -/
  | enter (f : Frame) (pending : Bool)
  /-- Python code ends. -/
  | left (f : Frame) (r : Res)
  /-- A traceback is printed. -/
  | printed
  /-- The GPI gets a return value. -/
  | result (f : Frame) (v : Int)
  /-- "Passing event to upper layer failed". -/
  | complain
  /-- `set_sim_event_callback` accepts, or refuses with RuntimeError. -/
  | eventSet (fn : Nat)
  | eventRefused (fn : Nat)
  /-- Python is finalized. -/
  | stopped
  /-- The process is ended by `exit(1)`, or by the use of an interpreter that does not run. -/
  | exit
  | crash
  deriving DecidableEq

/-- The interpreter. -/
inductive Interp where
  | off
  | on
  | gone
  deriving DecidableEq

/-- The static variables of embed.cpp:31-32 and logging.cpp:226-233, the interpreter, the Python code that is running,
innermost first, the events. `dead`: the process has ended. -/
structure St where
  debug : Bool := false
  ctx : Nat := 0
  initCalled : Bool := false
  startCalled : Bool := false
  interp : Interp := .off
  hooks : Nat := 0
  eventFn : Option Nat := none
  err : Option Res := none
  frames : List Frame := []
  dead : Bool := false
  trace : List Ev := []

/-- An event. -/
def St.emit (s : St) (e : Ev) : St := { s with trace := s.trace ++ [e] }

/-- The process ends. -/
def St.die (s : St) (e : Ev) : St := { s.emit e with dead := true }

/-- `c_to_python`, pygpi_priv.hpp:69-81. -/
def cToPython (s : St) : St :=
  if s.debug then (if s.ctx ≠ 0 then s.die .exit else { s with ctx := s.ctx + 1 }) else s

/-- `python_to_c`, pygpi_priv.hpp:83-94. -/
def pythonToC (s : St) : St :=
  if s.debug then (if s.ctx = 0 then s.die .exit else { s with ctx := s.ctx - 1 }) else s

/-- `c_to_python` and `PyGILState_Ensure`, then the call of Python code: embed.cpp:238-243, 277-281, bind.cpp:166-176.
(In `start_of_sim_time` the two come in the other order.) -/
def call (s : St) (f : Frame) : St :=
  let s := cToPython s
  if s.dead then s
  else if s.interp ≠ .on then s.die .crash
  else { s.emit (.enter f s.err.isSome) with frames := f :: s.frames }

/-- `PyErr_Print`: the error indicator is cleared; for SystemExit the process ends. -/
def errPrint (s : St) : St :=
  if s.err = some .sysExit then s.die .exit else { s.emit .printed with err := none }

/-- What follows the call of Python code: embed.cpp:256-268 for `load_entry`, embed.cpp:282-293 for the event function,
bind.cpp:181-195 for a callback. -/
def conclude (s : St) (f : Frame) (r : Res) : St :=
  let failed := r ≠ .ok
  let s := if failed then { s with err := some r } else s
  let s := if failed ∧ s.err ≠ some .sysExit then errPrint s else s
  let s := if failed then { s with err := none } else s
  let s :=
    match f with
    | .event _ => if failed then s.emit .complain else s
    | _ => s.emit (.result f (if failed then -1 else 0))
  pythonToC s

/-- `initialize`, embed.cpp:88-205, called by `gpi_load_users`. -/
def initPygpi (s : St) (w : World) : St :=
  let s := if debugOn w.debug then { s with debug := true } else s
  if s.initCalled then s
  else
    let s := { s with initCalled := true }
    match interpreterPath w.bin with
    | none => s
    | some path =>
      if w.argvOk = false then s
      else if w.initOk = false then s
      else
        let s := { s.emit (.started path) with interp := .on }
        let s := { s.emit .hooked with hooks := s.hooks + 1 }
        match attachPause w.erange w.attach with
        | none => s
        | some n => s.emit (.paused n)

/-- `start_of_sim_time`, embed.cpp:225-270, up to the call of `load_entry`. `imp` is how the import of `pygpi.entry`
ends. -/
def startOfSim (s : St) (imp : Res) : St :=
  if s.startCalled then s.emit (.result .load (-1))
  else
    let s := { s with startCalled := true }
    match imp with
    | .ok => call s .load
    | r =>
      let s := cToPython s
      if s.dead then s
      else if s.interp ≠ .on then s.die .crash
      else
        let s := errPrint { s with err := some r }
        if s.dead then s else pythonToC (s.emit (.result .load (-1)))

/-- `end_of_sim_time`, embed.cpp:272-295, up to the call of the event function. -/
def endOfSim (s : St) : St :=
  match s.eventFn with
  | none => s
  | some fn => call s (.event fn)

/-- `finalize`, embed.cpp:207-223. -/
def finalize (s : St) : St :=
  if s.interp = .on then
    let s := cToPython s
    if s.dead then s else pythonToC { s.emit .stopped with eventFn := none, interp := .gone }
  else s

/-- What happens. -/
inductive Op where
  /-- `gpi_load_users` calls `initialize`. -/
  | init (w : World)
  /-- The GPI calls the function for the start of the simulation; how the import of `pygpi.entry` ends. -/
  | start (imp : Res)
  /-- The GPI calls the function for the end of the simulation. -/
  | endSim
  /-- The GPI calls the function for clean-up. -/
  | final
  /-- The simulator calls back a Python function. -/
  | callback (fn : Nat)
  /-- The Python code that is running calls `set_sim_event_callback`. -/
  | setEvent (fn : Nat)
  /-- The Python code that is running ends. -/
  | ret (r : Res)
  deriving DecidableEq

/-- One step. Functions that are not registered with the GPI are not called. `set_sim_event_callback` is bind.cpp:834-849. -/
def step (s : St) (o : Op) : St :=
  if s.dead then s
  else
    match o with
    | .init w => initPygpi s w
    | .start imp => if s.hooks = 0 then s else startOfSim s imp
    | .endSim => if s.hooks = 0 then s else endOfSim s
    | .final => if s.hooks = 0 then s else finalize s
    | .callback fn => call s (.callback fn)
    | .setEvent fn =>
      if s.frames = [] then s
      else if s.eventFn.isSome then s.emit (.eventRefused fn)
      else { s.emit (.eventSet fn) with eventFn := some fn }
    | .ret r =>
      match s.frames with
      | [] => s
      | f :: fs => conclude ({ s.emit (.left f r) with frames := fs }) f r

/-- A process. -/
def run (h : List Op) : St := h.foldl step {}

end Verif.Embed
