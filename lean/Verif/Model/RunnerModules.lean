import Verif.Py.Int
/-!
# The modules of a test that runs a simulation (src/cocotb_tools/_pytest/_runner.py, hdl.py, mark.py, _regression.py)

The marker `cocotb_runner` is looked at twice: when pytest collects tests, and by the `hdl` fixture, whose `test()` starts
the simulation. Texts are those of file and module names; other keyword arguments of the marker are left out.
-/
namespace Verif.RunnerModules

/-- `@pytest.mark.cocotb_runner(*args, test_module=kw)`. -/
structure Use where
  args : List PyStr
  kw : Option PyStr
  deriving DecidableEq, Repr

/-- The marker that the function `cocotb_runner(test_module, *extra_test_module)` of mark.py makes. mark.py:23-54. -/
def made : List PyStr → Use
  | [] => { args := [], kw := some [] }
  | m :: extra => { args := extra, kw := some m }

/-- Nodes from the test function up to the session, each with its markers (`own_markers`). -/
abbrev Nodes := List (List Use)

/-- The loop over `iter_markers`, which goes from the test function up. _runner.py:49-52. -/
def firstArgs : List Use → Option (List PyStr)
  | [] => none
  | u :: us => if u.args = [] then firstArgs us else some u.args

/-- `Path.stem`: up to the last dot, if that is not the first or last character. -/
def stem (file : PyStr) : PyStr :=
  let ext := file.reverse.takeWhile (· != '.')
  let base := (file.reverse.dropWhile (· != '.')).drop 1
  if ext = [] ∨ base = [] then file else base.reverse

/-- Names of the modules whose tests are collected. `file` is the name of the runner's file. _runner.py:47-54. -/
def collectModules (nodes : Nodes) (file : PyStr) : List PyStr := (firstArgs nodes.flatten).getD [stem file]

/-- `_mark_cocotb_runner(self, test_module="", *args)`, called with the arguments of the marker; an argument that is given
twice raises TypeError. hdl.py:457-460. -/
def markRunner (u : Use) : PyM (List PyStr) :=
  match u.kw, u.args with
  | some _, _ :: _ => .error .typeError
  | some m, [] => .ok (if m = [] then [] else [m])
  | none, [] => .ok []
  | none, m :: ms => .ok (if m = [] then ms else m :: ms)

/-- The markers of one node. hdl.py:447-457. -/
def applyOwn : List PyStr → List Use → PyM (List PyStr)
  | tm, [] => .ok tm
  | _, u :: us => do let tm ← markRunner u; applyOwn tm us

/-- `_apply_markers`, from the session down to the test function. hdl.py:446-457. -/
def applyMarkers : Nodes → PyM (List PyStr)
  | [] => .ok []
  | own :: parents => do let tm ← applyMarkers parents; applyOwn tm own

/-- `hdl.test_module` for a test function, with its default `name.partition(".")[0]`. hdl.py:186-191. -/
def hdlModules (nodes : Nodes) (file : PyStr) : PyM (List PyStr) := do
  let tm ← applyMarkers nodes
  return if tm = [] then [file.takeWhile (· != '.')] else tm

/-! ## Files -/

/-- Which files there are in the directory of the runner; the file that importing a module gives, or ImportError. -/
structure World where
  dir : PyStr
  beside : PyStr → Bool
  imported : PyStr → Option PyStr

/-- `test_module.replace(".", os.path.pathsep) + ".py"`: `pathsep` is the character between directories in `PATH`. _runner.py:56-58. -/
def besideName (m : PyStr) : PyStr := (m.map fun c => if c = '.' then ':' else c) ++ ".py".toList

/-- The file whose tests are collected. _runner.py:55-64. -/
def collectFile (w : World) (m : PyStr) : Option PyStr :=
  if w.beside (besideName m) then some (w.dir ++ '/' :: besideName m) else w.imported m

/-- The file whose tests are run in the simulation. _regression.py:198-205. -/
def simFile (w : World) (m : PyStr) : Option PyStr := w.imported m

end Verif.RunnerModules
