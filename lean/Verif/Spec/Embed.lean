import Verif.Model.Embed
import Verif.Spec.Env

/-!
What can be relied on when Python runs inside a simulator, in terms of the events that can be seen, and what the
environment variables read by the native part mean.
-/
namespace Verif.EmbedSpec
open Verif Verif.Embed Verif.EnvSpec

/-! ### Running Python code -/

/-- The Python code that is running after an event. -/
def track (st : List Frame) : Ev → List Frame
  | .enter f _ => f :: st
  | .left _ _ => st.tail
  | _ => st

/-- The Python code that is running, innermost first. -/
def running (tr : List Ev) : List Frame := tr.foldl track []

/-- What the GPI guarantees about its calls, after the events `tr` (see C113 and C114 for the last three): libraries are
initialized, the simulation starts and clean-up takes place while no Python code runs; nothing starts after clean-up, and
only functions that Python code has registered are called back. -/
def May (tr : List Ev) : Op → Prop
  | .init _ => running tr = []
  | .start _ => running tr = [] ∧ Ev.stopped ∉ tr
  | .final => running tr = []
  | .callback _ => (∃ p, Ev.enter .load p ∈ tr) ∧ Ev.stopped ∉ tr
  | _ => True

/-- A history with the guarantees of the GPI. -/
def GpiOk (h : List Op) : Prop := ∀ a o b, h = a ++ o :: b → May (run a).trace o

/-- What has to follow the end of Python code: an exception is printed unless it is SystemExit, and the GPI is told
whether the code failed; a failure of the event function is logged. -/
def report : Frame → Res → List Ev
  | .event _, .ok => []
  | .event _, .sysExit => [.complain]
  | .event _, .exc => [.printed, .complain]
  | f, .ok => [.result f 0]
  | f, .sysExit => [.result f (-1)]
  | f, .exc => [.printed, .result f (-1)]

/-- The path that can be used: the variable is set, can be decoded and the path is shorter than the array for it (the
texts of C do not contain zeros). -/
def Path (w : World) (p : Text) : Prop := w.bin = some (some p) ∧ p.length < 4096

/-- Python can be started. -/
def Starts (w : World) (p : Text) : Prop := Path w p ∧ w.argvOk = true ∧ w.initOk = true

/-- Values of environment variables do not contain zeros. -/
def NoZero (w : World) : Prop := ∀ t, w.bin = some (some t) → 0 ∉ t

/-- The libraries have no debugging switched on. -/
def undebug : Op → Op
  | .init w => .init { w with debug := none }
  | o => o

/-- No Python code is called while other Python code runs. -/
def NeverNested (tr : List Ev) : Prop := ∀ a f p b, tr = a ++ Ev.enter f p :: b → running a = []

/-! ### Environment variables -/

/-- The value of a boolean variable that is off by default. -/
def BoolVar (v : Option Text) (b : Bool) : Prop :=
  (v = none ∧ b = false) ∨ ∃ x t, v = some x ∧ Trimmed x t ∧ ((t = [] ∧ b = false) ∨ Means b t)

/-- The levels of the documentation, in capital or small letters, with the numbers of the Python package `logging`. -/
def levels : List (String × Nat) :=
  [("trace", 5), ("debug", 10), ("info", 20), ("warning", 30), ("error", 40), ("critical", 50)]

/-- The value names a level. -/
def Level (v : Text) (n : Nat) : Prop := ∃ t, Trimmed v t ∧ ∃ p ∈ levels, Spells (ofStr p.1.toList) t ∧ n = p.2

/-- The value is an integer, written in decimal. -/
def IntVar (v : Text) (n : Nat) : Prop := ∃ t, Trimmed v t ∧ Writes t n

end Verif.EmbedSpec
