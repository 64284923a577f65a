import Verif.Py.Int
/-!
# The simulator that pytest uses, and the markers of the plugin (src/cocotb_tools/_pytest/hdl.py, mark.py, src/cocotb_tools/runner.py)

`PATH` is the set of commands that `shutil.which` finds. Runners that other libraries register are left out.
-/
namespace Verif.SimChoice

/-- `_SIMULATORS`: commands and names. hdl.py:30-41. -/
def simulators : List (PyStr × PyStr) :=
  [("verilator".toList, "verilator".toList), ("nvc".toList, "nvc".toList), ("ghdl".toList, "ghdl".toList),
   ("iverilog".toList, "icarus".toList), ("xrun".toList, "xcelium".toList), ("vcs".toList, "vcs".toList),
   ("vsim".toList, "questa".toList), ("vsimsa".toList, "riviera".toList)]

/-- The loop of `_get_simulator`. hdl.py:55-58. -/
def firstFound (path : PyStr → Bool) : List (PyStr × PyStr) → Option PyStr
  | [] => none
  | (command, name) :: rest => if path command then some name else firstFound path rest

/-- `_get_simulator`. hdl.py:44-60. -/
def getSimulator (path : PyStr → Bool) (option : PyStr) : PyStr :=
  if option = [] ∨ option = "auto".toList then
    match firstFound path simulators with
    | some name => name
    | none => option
  else option

/-- Whether the command line accepts a value: the choices of the option. plugin.py:198-208. -/
def accepted (value : PyStr) : Bool := value == "auto".toList || (simulators.map (·.2)).contains value

/-- The classes of runners. runner.py:893, 1044, 1192, 1404, 1533, 1796, 1852, 1868, 2001, 2176, 2278. -/
inductive Cls where
  | Icarus | Questa | QuestaQIS | Ghdl | Riviera | ActiveHDL | Verilator | Xcelium | Nvc | Vcs | Dsim
  deriving DecidableEq, Repr

/-- `SUPPORTED_RUNNERS`. runner.py:2380-2392. -/
def supported : List (PyStr × Cls) :=
  [("icarus".toList, .Icarus), ("questa".toList, .Questa), ("questa-qisqrun".toList, .QuestaQIS), ("ghdl".toList, .Ghdl),
   ("riviera".toList, .Riviera), ("activehdl".toList, .ActiveHDL), ("verilator".toList, .Verilator),
   ("xcelium".toList, .Xcelium), ("nvc".toList, .Nvc), ("vcs".toList, .Vcs), ("dsim".toList, .Dsim)]

/-- The command that `_simulator_in_path` looks for when a runner is made; for Verilator, none.
runner.py:906-908, 1057-1059, 1215-1217, 1419-1421, 1565-1567, 1652-1654, 1884-1886, 2016-2018, 2188-2190, 2288-2290. -/
def Cls.needs : Cls → Option PyStr
  | .Icarus => some "iverilog".toList
  | .Questa => some "vsim".toList
  | .QuestaQIS => some "qrun".toList
  | .Ghdl => some "ghdl".toList
  | .Nvc => some "nvc".toList
  | .Riviera => some "vsimsa".toList
  | .ActiveHDL => some "vsimsa".toList
  | .Verilator => none
  | .Xcelium => some "xrun".toList
  | .Vcs => some "vcs".toList
  | .Dsim => some "dsim".toList

/-- The command that a build looks for in addition. runner.py:1894-1898, called from `_build_command`. -/
def Cls.needsToBuild : Cls → Option PyStr
  | .Verilator => some "verilator".toList
  | _ => none

/-- `__name__` of the class. -/
def Cls.name : Cls → PyStr
  | .Icarus => "Icarus".toList
  | .Questa => "Questa".toList
  | .QuestaQIS => "QuestaQIS".toList
  | .Ghdl => "Ghdl".toList
  | .Riviera => "Riviera".toList
  | .ActiveHDL => "ActiveHDL".toList
  | .Verilator => "Verilator".toList
  | .Xcelium => "Xcelium".toList
  | .Nvc => "Nvc".toList
  | .Vcs => "Vcs".toList
  | .Dsim => "Dsim".toList

inductive Outcome where
  | runner (c : Cls)
  | valueError
  | systemExit
  deriving DecidableEq, Repr

def inPath (path : PyStr → Bool) : Option PyStr → Bool
  | none => true
  | some command => path command

/-- `get_runner`, with `Runner.__init__`. runner.py:2402-2417, 216-217. -/
def getRunner (path : PyStr → Bool) (name : PyStr) : Outcome :=
  match supported.lookup name with
  | none => .valueError
  | some c => if inPath path c.needs then .runner c else .systemExit

/-- The runner of the `hdl` fixture. hdl.py:91-93, plugin.py:630-639. -/
def makeRunner (path : PyStr → Bool) (option : PyStr) : Outcome := getRunner path (getSimulator path option)

/-- A build with a runner finds the simulator; otherwise SystemExit. runner.py:1894-1898. -/
def canBuild (path : PyStr → Bool) (c : Cls) : Bool := inPath path c.needsToBuild

/-- `hdl.simulator`. hdl.py:205-208. -/
def simulatorName (c : Cls) : PyStr := c.name.map Char.toLower

/-! ## Markers -/

/-- `inspect.Parameter.kind`. -/
inductive PKind where
  | normal | varPositional | keywordOnly | varKeyword
  deriving DecidableEq, Repr

structure Param where
  name : PyStr
  kind : PKind
  /-- `str` of the default value -/
  default : Option PyStr
  deriving DecidableEq, Repr

/-- A function that describes a marker: `__name__`, its parameters, the first line of `__doc__.lstrip()`. -/
structure Marker where
  name : PyStr
  params : List Param
  doc : PyStr
  deriving DecidableEq, Repr

/-- Text of a parameter. mark.py:204-212. -/
def argText (p : Param) : PyStr :=
  (if p.kind = .varKeyword then p.name ++ "=...".toList else p.name) ++
    (match p.default with | none => [] | some d => '=' :: d)

/-- The loop over the parameters. mark.py:201-220. -/
def argTexts : List PyStr → List Param → List PyStr
  | args, [] => args
  | args, p :: ps =>
    argTexts ((args ++ (if p.kind = .keywordOnly ∧ "*".toList ∉ args then ["*".toList] else [])) ++ [argText p] ++
      (if p.kind = .varPositional then ["...".toList] else [])) ps

/-- `', '.join`. -/
def commaJoin : List PyStr → PyStr
  | [] => []
  | [a] => a
  | a :: rest => a ++ ", ".toList ++ commaJoin rest

/-- White space of `str.strip`; only ASCII is modelled. -/
def isSpace (c : Char) : Bool := c == ' ' || c == '\t' || c == '\n' || c == '\r' || c == '\x0b' || c == '\x0c'

def rstrip (s : PyStr) : PyStr := (s.reverse.dropWhile isSpace).reverse
def strip (s : PyStr) : PyStr := rstrip (s.dropWhile isSpace)

/-- `_marker_description`. mark.py:192-225. -/
def description (m : Marker) : PyStr :=
  rstrip (m.name ++ '(' :: commaJoin (argTexts [] m.params) ++ "): ".toList ++ m.doc)

/-- How pytest reads the name of a registered marker: `line.split(":")[0].split("(")[0].strip()`
(`_pytest/mark/structures.py`, `MarkGenerator.__getattr__`). -/
def registeredName (line : PyStr) : PyStr :=
  strip (((line.takeWhile (· != ':'))).takeWhile (· != '('))

/-- `pytest.mark.<name>` with `--strict-markers`, `lines` being the registered markers. -/
def strictAccepts (lines : List PyStr) (name : PyStr) : Bool := (lines.map registeredName).contains name

/-- Names of the functions that `_register_markers` goes through. mark.py:234-254. -/
def registered : List PyStr :=
  ["cocotb_runner", "cocotb_test", "cocotb_timeout", "cocotb_library", "cocotb_sources", "cocotb_defines", "cocotb_includes",
   "cocotb_parameters", "cocotb_plusargs", "cocotb_env", "cocotb_seed", "cocotb_timescale", "cocotb_always", "cocotb_clean",
   "cocotb_waves", "cocotb_build_args", "cocotb_elab_args", "cocotb_test_args", "cocotb_pre_cmd"].map String.toList

/-- `_register_markers`: the lines it adds to those of other plugins and of the project, given the functions of the
module. mark.py:228-255. -/
def registerMarkers (function : PyStr → Marker) (lines : List PyStr) : List PyStr :=
  lines ++ registered.map fun n => description (function n)

end Verif.SimChoice
