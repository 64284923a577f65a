import Verif.Py.Text
import Verif.Model.Env
/-!
# Log messages of the GPI and set-up of logging (src/cocotb/share/lib/pygpi/logging.cpp, src/cocotb/share/lib/gpi/logging.cpp,
src/cocotb/logging.py)

Python's `logging` is modelled as far as levels go. Levels are numbers, `NOTSET` is 0.
-/
namespace Verif.GpiLog
open Verif.Env

/-- The name of a logger, the last component first; the root logger is `[]`. -/
abbrev Name := List String

/-- The logger whose level the GPI knows. -/
def gpi : Name := ["gpi"]

/-- Levels, what the patched `setLevel` and the C++ code know. `loc` is `pygpi_log_level`, `native` is
`current_native_logger_level`, `ready` tells that `_setup_gpi_logger` has been called. -/
structure St where
  levels : Name → Nat
  disabled : Nat
  ready : Bool
  loc : Nat
  native : Nat

/-- `Logger.getEffectiveLevel` (Python's library). -/
def effective (levels : Name → Nat) : Name → Nat
  | [] => levels []
  | c :: p => if levels (c :: p) ≠ 0 then levels (c :: p) else effective levels p

/-- `Logger.isEnabledFor` (Python's library). -/
def isEnabledFor (s : St) (name : Name) (level : Nat) : Bool :=
  decide (¬ s.disabled ≥ level) && decide (level ≥ effective s.levels name)

/-- Where a message goes. -/
inductive Out where
  | dropped
  | python
  | native
  deriving DecidableEq

/-- What is called. -/
inductive Op where
  /-- `logging.getLogger(name).setLevel(level)`. -/
  | setLevel (name : Name) (level : Nat)
  /-- `logging.disable(level)`. -/
  | disable (level : Nat)
  /-- `_setup_gpi_logger`. -/
  | setup
  deriving DecidableEq

/-- `setLevel`, patched for the logger of the GPI. logging.py:180-195, pygpi/logging.cpp:196-199. -/
def step (s : St) : Op → St
  | .setLevel name level =>
    let levels := fun n => if n = name then level else s.levels n
    if s.ready ∧ name = gpi then
      { s with levels := levels, loc := effective levels gpi, native := effective levels gpi }
    else { s with levels := levels }
  | .disable level => { s with disabled := level }
  | .setup => { s with ready := true }

/-- Before the first call: the root logger has level WARNING. -/
def init : St := ⟨fun n => if n = [] then 30 else 0, 0, false, 0, 0⟩

/-- After some calls. -/
def run (h : List Op) : St := h.foldl step init

/-- `gpi_native_logger_vlog`: does it write? gpi/logging.cpp:27-37. -/
def nativeEnabled (s : St) (level : Nat) : Bool :=
  decide (¬ level < (if s.native = 0 then 20 else s.native))

/-- `pygpi_log_handler` and `_log_from_c`. pygpi/logging.cpp:48-63, 167-184; logging.py:455-471. -/
def log (s : St) (name : Name) (level : Nat) : Out :=
  if s.loc ≠ 0 ∧ level < s.loc then .dropped
  else if !s.ready then (if nativeEnabled s level then .native else .dropped)
  else if isEnabledFor s name level then .python else .dropped

/-! ## The text of a message -/

/-- `vsnprintf(buf, size, …)` for a message that comes to the text `t`: what is in the buffer afterwards. The value returned is
the length of `t`. -/
def vsnprintf (size : Nat) (t : Text) : Text := t.take (size - 1)

/-- The buffer of a log handler: the text passed on and the capacity afterwards; `reserve` gives at least the capacity asked
for. Errors of `vsnprintf` are left out. pygpi/logging.cpp:73-106, gpi/logging.cpp:44-78. -/
def buffer (cap extra : Nat) (t : Text) : Text × Nat :=
  if t.length ≥ cap then (vsnprintf (t.length + 1) t, t.length + 1 + extra) else (vsnprintf cap t, cap)

/-- Messages one after the other, each with what `reserve` adds. -/
def buffers (cap : Nat) : List (Text × Nat) → List Text
  | [] => []
  | (t, extra) :: ms => (buffer cap extra t).1 :: buffers (buffer cap extra t).2 ms

/-- `vsnprintf` with a format and no arguments; `none` if it reads arguments, which is undefined behaviour. 37 is `%`. -/
def formatNoArgs : Text → Option Text
  | [] => some []
  | 37 :: 37 :: t => (formatNoArgs t).map (37 :: ·)
  | 37 :: _ => none
  | c :: t => (formatNoArgs t).map (c :: ·)

/-- The text shown for a message, by Python or by the fallback; `ok` tells whether Python can take it (PyUnicode_FromString, and
the call of the log function, do not fail). pygpi/logging.cpp:144-184, 25-46. -/
def shown (ok : Bool) (t : Text) : Option Text := if ok then some t else formatNoArgs t

/-! ## Colours -/

/-- A name in the environment. -/
def var (s : String) : Text := ofStr s.toList

/-- `strip_ansi` as `_init` sets it; `tty` is `sys.stdout.isatty()`. logging.py:147-152. -/
def stripInit (U : Unicode) (env : Environ) (tty : Bool) : PyM Bool := do
  let dflt ← if ¬ tty then pure false
    else if getStr env (var "NO_COLOR") none ≠ [] then pure false
    else do
      let gui ← getBool U env (var "GUI") none
      pure (!gui)
  let b ← getBool U env (var "COCOTB_ANSI_OUTPUT") (some dflt)
  pure (!b)

end Verif.GpiLog
