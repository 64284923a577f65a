import Verif.Py.Regex
import Verif.Py.Str
import Verif.Model.Env
import Verif.Model.XUnit
/-!
# The Python test runner

src/cocotb_tools/runner.py. Commands are modelled by the tool they start, the build arguments and the source files they
are given; fixed options, defines, includes and parameters are left out unless stated. Processes, files and their
modification times are the environment: any process may do anything to the results file and end with any code.
-/
namespace Verif.Runner
open Verif.Env

/-- A literal. -/
def lit (s : String) : Text := ofStr s.toList

/-! ### Literals -/

/-- The character at a code below 16 in `f"{i:02x}"`. -/
def hexLower (d : Nat) : Nat := if d < 10 then 48 + d else 87 + d

/-- `_sv_escapes`, runner.py:82-93: what a character is translated to. -/
def svEscapeChar (c : Nat) : Text :=
  if c = 10 then [92, 110]
  else if c = 9 then [92, 116]
  else if c = 92 then [92, 92]
  else if c = 34 then [92, 34]
  else if c = 11 then [92, 118]
  else if c = 12 then [92, 102]
  else if c = 255 then [92, 120, 70, 70]
  else if c < 32 then [92, 120, hexLower (c / 16), hexLower (c % 16)]
  else [c]

/-- `_sv_escape_string`, runner.py:98-104, without the warning. -/
def svEscapeString (v : Text) : Text := 34 :: v.flatMap svEscapeChar ++ [34]

/-- `_vhdl_escape_string`, runner.py:110-116, without the warning. -/
def vhdlEscapeString (v : Text) : Text := 34 :: (v.flatMap fun c => if c = 34 then [34, 34] else [c]) ++ [34]

/-- `[\\{}]`, runner.py:67. -/
def tclMagic (c : Nat) : Bool := c = 92 || c = 123 || c = 125

/-- `\s` with `re.ASCII`, runner.py:68. -/
def tclSpace (c : Nat) : Bool := c = 32 || (9 ≤ c && c ≤ 13)

/-- `_as_tcl_value`, runner.py:71-79. -/
def asTclValue (v : Text) : Text :=
  let v := v.flatMap fun c => if tclMagic c then [92, c] else [c]
  let v := replaceText [10] [92, 110] v
  let v := v.flatMap fun c => if tclSpace c then [92, c] else [c]
  if v.head? = some 34 then 92 :: v else v

/-- A Python value given to `as_sv_literal` or `as_vhdl_literal`. The text of a float is what `str` gives; the
characters of a Logic or LogicArray are what `str` gives. -/
inductive Value where
  | bool (b : Bool)
  | int (i : Int)
  | float (text : Text)
  | logic (chars : Text)
  | str (t : Text)
  | other
  deriving DecidableEq

/-- `str(i)`. -/
def strInt (i : Int) : Text := ofStr (intStr i)

/-- `as_sv_literal`, runner.py:119-135. -/
def asSvLiteral : Value → PyM Text
  | .bool b => .ok (if b then lit "1'b1" else lit "1'b0")
  | .int i => .ok (strInt i)
  | .float t => .ok t
  | .logic cs =>
    if cs.any (fun c => !(c ∈ lit "01XZ")) then .error .valueError
    else .ok (decText cs.length ++ lit "'b" ++ cs)
  | .str t => .ok (svEscapeString t)
  | .other => .error .typeError

/-- `as_vhdl_literal`, runner.py:138-147. -/
def asVhdlLiteral : Value → PyM Text
  | .bool b => .ok (if b then lit "true" else lit "false")
  | .int i => .ok (strInt i)
  | .float t => .ok t
  | .logic cs => .ok cs
  | .str t => .ok (vhdlEscapeString t)
  | .other => .error .typeError

/-! ### Sources and build arguments -/

/-- The tags of runner.py:181-190, and a tag class of another package. -/
inductive Tag where
  | vhdl | verilog | control | foreign
  deriving DecidableEq, Repr

/-- `Path(p).suffix` for a path whose last character is no slash: what follows the last dot of the last component,
unless that dot is its first or last character. 47 is `/`, 46 is `.`. -/
def suffix (p : Text) : Text :=
  let name := (p.reverse.takeWhile (· != 47)).reverse
  let ext := (name.reverse.takeWhile (· != 46)).reverse
  if ext.length + 1 < name.length ∧ ext ≠ [] then 46 :: ext else []

/-- `_determine_file_type`, runner.py:197-210. -/
def fileType (p : Text) : PyM Tag :=
  let ext := suffix p
  if ext ∈ [lit ".v", lit ".sv", lit ".vh", lit ".svh"] then .ok .verilog
  else if ext ∈ [lit ".vhd", lit ".vhdl"] then .ok .vhdl
  else if ext = lit ".vlt" then .ok .control
  else .error .valueError

/-- A source file as given by the user: a path, or a path in a tag. -/
inductive Given where
  | path (p : Text)
  | tagged (t : Tag) (p : Text)
  deriving DecidableEq

/-- The loops of `_set_verilog_sources`, `_set_vhdl_sources` and `_set_sources`, runner.py:761-824: they differ in the
tags they allow. Paths are taken to be absolute. -/
def setSources (allowed : List Tag) : List Given → PyM (List (Tag × Text))
  | [] => .ok []
  | .tagged t p :: gs =>
    if t ∈ allowed then
      match setSources allowed gs with
      | .ok l => .ok ((t, p) :: l)
      | .error e => .error e
    else .error .valueError
  | .path p :: gs =>
    match fileType p with
    | .error e => .error e
    | .ok t =>
      match setSources allowed gs with
      | .ok l => .ok ((t, p) :: l)
      | .error e => .error e

/-- `_set_build_args`, runner.py:834-846. -/
def setBuildArgs : List Given → PyM (List (Option Tag × Text))
  | [] => .ok []
  | .tagged t a :: gs =>
    if t ∈ [Tag.verilog, .vhdl] then
      match setBuildArgs gs with
      | .ok l => .ok ((some t, a) :: l)
      | .error e => .error e
    else .error .valueError
  | .path a :: gs =>
    match setBuildArgs gs with
    | .ok l => .ok ((none, a) :: l)
    | .error e => .error e

/-- The runners. Riviera and ActiveHDL share `AldecBase`. -/
inductive Sim where
  | icarus | questa | questaQis | ghdl | nvc | aldec | verilator | xcelium | vcs | dsim
  deriving DecidableEq, Repr

/-- What `build` stores in the runner, runner.py:425-461. -/
structure Build where
  sources : List (Tag × Text)
  vhdlSources : List (Tag × Text)
  verilogSources : List (Tag × Text)
  args : List (Option Tag × Text)
  /-- `hdl_toplevel is not None`. -/
  hasToplevel : Bool
  always : Bool
  waves : Bool

/-- A command, or a line of a script: the tool, the build arguments and the source files it is given. -/
structure Cmd where
  tool : String
  args : List Text
  srcs : List (Tag × Text)
  deriving DecidableEq

/-- Modification times; `none`: there is no such file. -/
abbrev Times := Text → Option Nat

/-- The loop of `outdated`, runner.py:875-878: a missing dependency raises OSError. -/
def newest (times : Times) : List Text → Nat → PyM Nat
  | [], m => .ok m
  | p :: ps, m =>
    match times p with
    | none => .error .runtimeError
    | some t => newest times ps (max t m)

/-- `outdated`, runner.py:863-880. -/
def outdated (out : Option Nat) (times : Times) (deps : List Text) : PyM Bool :=
  match out with
  | none => .ok true
  | some o =>
    match newest times deps 0 with
    | .error e => .error e
    | .ok m => .ok (decide (m > o))

/-- The values of all build arguments. -/
def Build.argValues (b : Build) : List Text := b.args.map (·.2)

/-- `[arg.value for arg in self._build_args if arg.tag in (tag, None)]`. -/
def Build.argsFor (b : Build) (t : Tag) : List Text :=
  (b.args.filter fun a => a.1 = some t ∨ a.1 = none).map (·.2)

/-- The checks of the runners for one language: sources and build arguments of another one are refused. -/
def only (srcTags : List Tag) (argTag : Tag) (srcs : List (Tag × Text)) (args : List (Option Tag × Text)) : Bool :=
  srcs.all (fun s => s.1 ∈ srcTags) && args.all (fun a => a.1 ∈ [some argTag, none])

/-- `if outdated(out, sources) or self.always`: the commands, or none. -/
def ifOutdated (b : Build) (out : Option Nat) (times : Times) (srcs : List (Tag × Text)) (cmds : PyM (List Cmd)) :
    PyM (List Cmd) :=
  match outdated out times (srcs.map (·.2)) with
  | .error e => .error e
  | .ok o => if o || b.always then cmds else .ok []

/-- The loops of Questa, runner.py:1087-1117, and Aldec, runner.py:1688-1698: one command for each file. -/
def perFile (b : Build) (vcom vlog : String) : List (Tag × Text) → PyM (List Cmd)
  | [] => .ok []
  | s :: ss =>
    if s.1 = .vhdl then (perFile b vcom vlog ss).map ({ tool := vcom, args := b.argsFor .vhdl, srcs := [s] } :: ·)
    else if s.1 = .verilog then
      (perFile b vcom vlog ss).map ({ tool := vlog, args := b.argsFor .verilog, srcs := [s] } :: ·)
    else .error .valueError

/-- The `_build_command` methods. `out` is the modification time of the file the runner looks at. -/
def buildCommand (sim : Sim) (b : Build) (out : Option Nat) (times : Times) : PyM (List Cmd) :=
  match sim with
  | .icarus => -- runner.py:964-1016; the options for waves and timescale are left out
    if ¬ b.hasToplevel then .error .valueError
    else
      let srcs := b.sources ++ b.verilogSources
      if ¬ only [.verilog] .verilog srcs b.args then .error .valueError
      else ifOutdated b out times srcs (.ok [{ tool := "iverilog", args := b.argValues, srcs := srcs }])
  | .questa => -- runner.py:1070-1117; the `vlib` command is left out
    perFile b "vcom" "vlog" (b.sources ++ b.vhdlSources ++ b.verilogSources)
  | .questaQis => -- runner.py:1258-1305
    .ok [{ tool := "qrun", args := b.argValues, srcs := b.sources ++ b.vhdlSources ++ b.verilogSources }]
  | .ghdl => -- runner.py:1449-1481
    let srcs := b.sources ++ b.vhdlSources
    if ¬ only [.vhdl] .vhdl srcs b.args then .error .valueError
    else .ok ({ tool := "ghdl -i", args := b.argValues, srcs := srcs } ::
      if b.hasToplevel then [{ tool := "ghdl -m", args := b.argValues, srcs := [] }] else [])
  | .nvc => -- runner.py:1584-1613
    let srcs := b.sources ++ b.vhdlSources
    if ¬ only [.vhdl] .vhdl srcs b.args then .error .valueError
    else .ok [{ tool := "nvc", args := b.argValues, srcs := srcs }]
  | .aldec => -- runner.py:1665-1711: the lines of the script
    let srcs := b.sources ++ b.vhdlSources ++ b.verilogSources
    ifOutdated b out times srcs (perFile b "acom" "alog" srcs)
  | .verilator => -- runner.py:1909-1983; the file verilator.cpp is left out
    let srcs := b.sources ++ b.verilogSources
    if ¬ only [.verilog, .control] .verilog srcs b.args then .error .valueError
    else if ¬ b.hasToplevel then .error .valueError
    else .ok [{ tool := "verilator", args := b.argValues, srcs := srcs }, { tool := "make", args := [], srcs := [] }]
  | .xcelium => -- runner.py:2032-2090
    if b.waves then .error .runtimeError
    else if ¬ b.hasToplevel then .error .valueError
    else
      let srcs := b.sources ++ b.vhdlSources ++ b.verilogSources
      if ¬ srcs.all (fun s => s.1 ∈ [Tag.vhdl, .verilog]) then .error .valueError
      else .ok [{ tool := "xrun", args := b.argValues, srcs := srcs }]
  | .vcs => -- runner.py:2228-2253
    let srcs := b.sources ++ b.vhdlSources ++ b.verilogSources
    if ¬ srcs.all (fun s => s.1 ∈ [Tag.vhdl, .verilog]) then .error .valueError
    else ifOutdated b out times srcs (.ok [{ tool := "vcs", args := b.argValues, srcs := srcs }])
  | .dsim => -- runner.py:2337-2378
    let srcs := b.sources ++ b.verilogSources
    if ¬ only [.verilog] .verilog srcs b.args then .error .valueError
    else ifOutdated b out times srcs (.ok [{ tool := "dsim", args := b.argValues, srcs := srcs }])

/-- Files and the product of builds: for each file its modification time and content; for the product its time, and the
arguments and sources, with their contents, it was made from. -/
structure Disk where
  now : Nat
  files : Text → Option (Nat × Nat)
  out : Option (Nat × List (List Text × List (Tag × Text × Option Nat)))

/-- What commands make of the files. -/
def makes (files : Text → Option (Nat × Nat)) (cmds : List Cmd) : List (List Text × List (Tag × Text × Option Nat)) :=
  cmds.map fun c => (c.args, c.srcs.map fun s => (s.1, s.2, (files s.2).map (·.2)))

inductive DiskOp where
  /-- A file is written, some time after the operation before. -/
  | edit (path : Text) (content pause : Nat)
  /-- `build` is called. -/
  | build (b : Build)

/-- The effect of an operation; the time of the product is the time of the build, which runs the commands unless there
are none or making them raised. runner.py:470-471. -/
def Disk.step (sim : Sim) (d : Disk) : DiskOp → Disk
  | .edit p c pause =>
    { d with now := d.now + pause, files := fun q => if q = p then some (d.now + pause, c) else d.files q }
  | .build b =>
    match buildCommand sim b (d.out.map (·.1)) (fun p => (d.files p).map (·.1)) with
    | .error _ => d
    | .ok [] => d
    | .ok cmds => { d with out := some (d.now, makes d.files cmds) }

/-- The effect of operations. -/
def Disk.run (sim : Sim) (d : Disk) (ops : List DiskOp) : Disk := ops.foldl (Disk.step sim) d

/-- The languages of `supported_gpi_interfaces` of each runner. -/
def Sim.interfaces : Sim → List String
  | .icarus => ["verilog"] -- runner.py:904
  | .questa => ["verilog", "vhdl"] -- runner.py:1052-1055
  | .questaQis => ["verilog", "vhdl"] -- runner.py:1210-1213
  | .ghdl => ["vhdl"] -- runner.py:1412
  | .nvc => ["vhdl"] -- runner.py:1543
  | .aldec => ["verilog", "vhdl"] -- runner.py:1647-1650
  | .verilator => ["verilog"] -- runner.py:1877
  | .xcelium => ["verilog", "vhdl"] -- runner.py:2011-2014
  | .vcs => ["verilog"] -- runner.py:2186
  | .dsim => ["verilog"] -- runner.py:2286

/-- `_check_hdl_toplevel_lang`, runner.py:236-274, after a `build`. -/
def checkLang (sim : Sim) (b : Build) (given : Option String) : PyM String :=
  let lang : PyM String :=
    match given with
    | some l => .ok l
    | none =>
      if b.vhdlSources ≠ [] ∧ b.verilogSources = [] ∧ b.sources = [] then .ok "vhdl"
      else if b.verilogSources ≠ [] ∧ b.vhdlSources = [] ∧ b.sources = [] then .ok "verilog"
      else if b.sources ≠ [] ∧ b.vhdlSources = [] ∧ b.verilogSources = [] then
        match b.sources.getLast? with
        | some (.vhdl, _) => .ok "vhdl"
        | some (.verilog, _) => .ok "verilog"
        | _ => .error .valueError
      else .error .valueError
  match lang with
  | .error e => .error e
  | .ok l => if l ∈ sim.interfaces then .ok l else .error .valueError

/-! ### Selection of tests and the environment -/

/-- The `testcase` argument. -/
inductive Testcase where
  | text (t : Text)
  | names (l : List Text)

/-- The names in `testcase`, runner.py:578-582. -/
def Testcase.list : Testcase → List Text
  | .text t => ((splitGo [44] 0 t).filter fun s => stripText s ≠ []).map stripText
  | .names l => l

/-- The pattern for names of tests, runner.py:583. -/
def testcaseRegex (names : List Text) : Text :=
  lit "\\.(" ++ joinText [124] (names.map fun n => lit ".*" ++ reEscape n) ++ lit ")$"

/-- The arguments of `test` that become environment variables, and the other settings put in the environment. -/
structure TestArgs where
  extraEnv : Environ
  testcase : Option Testcase
  testFilter : Option Text
  /-- `str(seed)`. -/
  seed : Option Text
  /-- The paths of waves and log file, joined. -/
  attachments : Text
  toplevel : Text
  modules : Text
  lang : Text
  resultsFile : Text

/-- What the runner's process knows about its installation. -/
structure Host where
  environ : Environ
  libsDir : Text
  sysPath : Text
  executable : Text
  libpython : Option Text
  entryPoint : Text
  /-- The runner sets `COCOTB_TRUST_INERTIAL_WRITES` if it is not set: Ghdl, Nvc and Verilator. -/
  trustsInertial : Bool
  /-- What the runner sets `GPI_EXTRA` to: Questa, Aldec and Xcelium. -/
  gpiExtra : Option Text

/-- `d[k] = v`. -/
def setEnv (d : Environ) (k v : Text) : Environ := fun j => if j = k then some v else d j

/-- `d.update(e)`. -/
def updateEnv (d e : Environ) : Environ := fun j => match e j with | some v => some v | none => d j

/-- `if v is not None: d[k] = v`. -/
def setOpt (d : Environ) (k : Text) : Option Text → Environ
  | some v => setEnv d k v
  | none => d

/-- `_set_env_common`, runner.py:276-303. -/
def setEnvCommon (h : Host) (env : Environ) : PyM Environ :=
  let env := updateEnv env h.environ
  let users : PyM (List Text) :=
    if (env (lit "GPI_USERS")).isNone then
      match env (lit "LIBPYTHON_LOC") with
      | some l => .ok [l]
      | none =>
        match h.libpython with
        | none => .error .valueError
        | some l => .ok [l]
    else .ok []
  match users with
  | .error e => .error e
  | .ok us =>
    match env (lit "PATH") with
    | none => .error .keyError
    | some p =>
      let env := setEnv env (lit "PATH") (p ++ lit ":" ++ h.libsDir)
      let env := setEnv env (lit "PYTHONPATH") h.sysPath
      let env := setEnv env (lit "PYGPI_PYTHON_BIN") h.executable
      .ok (if (env (lit "GPI_USERS")).isNone then
        setEnv env (lit "GPI_USERS") (joinText (lit ";") (us ++ [h.entryPoint])) else env)

/-- The environment of the simulator when `test` starts it; `_old` is what earlier calls left in the runner.
runner.py:576-614 and 650-652, `_set_env_test` 308-317 with the additions of Ghdl, Nvc and Verilator (1415-1417,
1561-1563, 1880-1882) and of the `_test_command` methods (1187, 1399, 1734, 1753, 2168). 45 is `-`. -/
def testEnv (h : Host) (a : TestArgs) (_old : Environ) : PyM Environ :=
  let env := a.extraEnv
  let env := setOpt env (lit "COCOTB_TEST_FILTER") (a.testcase.map fun t => testcaseRegex t.list)
  let env := setOpt env (lit "COCOTB_TEST_FILTER") a.testFilter
  let env := setOpt env (lit "COCOTB_RANDOM_SEED") a.seed
  let env := if (env (lit "COCOTB_RESULTS_ATTACHMENTS")).isNone then
    setEnv env (lit "COCOTB_RESULTS_ATTACHMENTS") a.attachments else env
  match setEnvCommon h env with
  | .error e => .error e
  | .ok env =>
    let env := setEnv env (lit "COCOTB_TOPLEVEL") (a.toplevel.takeWhile (· != 45))
    let env := setEnv env (lit "COCOTB_TEST_MODULES") a.modules
    let env := setEnv env (lit "TOPLEVEL_LANG") a.lang
    let env := if h.trustsInertial && (env (lit "COCOTB_TRUST_INERTIAL_WRITES")).isNone then
      setEnv env (lit "COCOTB_TRUST_INERTIAL_WRITES") (lit "1") else env
    let env := setEnv env (lit "COCOTB_RESULTS_FILE") a.resultsFile
    .ok (setOpt env (lit "GPI_EXTRA") h.gpiExtra)

/-- A call of a method of a runner. -/
inductive Call where
  | build (h : Host)
  | test (h : Host) (a : TestArgs)

/-- What a call leaves in `self.env`, runner.py:462 and 576-652: `build` adds to it, `test` starts anew. A call that
raises is taken to leave it as it was. -/
def Call.env (old : Environ) : Call → Environ
  | .build h => match setEnvCommon h old with | .ok e => e | .error _ => old
  | .test h a => match testEnv h a old with | .ok e => e | .error _ => old

/-- The filters the regression manager is given and whether it starts, regression.py:1157-1173: with both variables set
it raises. The filters select the tests they find a match in; no filter selects every test. -/
def filters (env : Environ) : PyM (List Text) :=
  match getList env (lit "COCOTB_TESTCASE") none [44] with
  | .error e => .error e
  | .ok testcases =>
    let f := getStr env (lit "COCOTB_TEST_FILTER") none
    if testcases ≠ [] ∧ f ≠ [] then .error .runtimeError
    else if testcases ≠ [] then .ok (testcases.map (· ++ [36]))
    else if f ≠ [] then .ok [f]
    else .ok []

/-! ### The outcome of `test` -/

/-- The results file: missing, not XML, or a document. -/
inductive File where
  | missing
  | malformed
  | doc (e : XUnit.Elem)

/-- A command that is run: what it does to the results file and the code it ends with; `none`: it could not be
started. -/
structure Proc where
  effect : File → File
  code : Option Int

/-- Exceptions that leave `test`. -/
inductive Exc where
  | py (e : PyErr)
  | parseError
  | osError
  | exit (code : Int)

/-- `_execute_cmds`, runner.py:728-746. -/
def executeCmds : List Proc → File → Except Exc Unit × File
  | [], f => (.ok (), f)
  | p :: ps, f =>
    match p.code with
    | none => (.error .osError, f)
    | some c => if c ≠ 0 then (.error (.py .runtimeError), p.effect f) else executeCmds ps (p.effect f)

/-- `get_results`, check_results.py:14-39. -/
def readResults : File → Except Exc (Nat × Nat)
  | .missing => .error (.py .runtimeError)
  | .malformed => .error .parseError
  | .doc d =>
    match XUnit.getResults d with
    | .ok r => .ok r
    | .error e => .error (.py e)

/-- The `results_xml` argument. -/
inductive XmlArg where
  | none_
  | absolute
  | relative
  deriving DecidableEq

/-- `test` from the choice of the results file on, runner.py:625-705: how it ends, and the results file then. Under
pytest `pytest` holds; `unlinkOk`: the old file could be deleted; `cmds`: the commands, or the error in making them.
The viewer that may be started at the end is left out. -/
def test (pytest : Bool) (xml : XmlArg) (unlinkOk : Bool) (before : File) (cmds : PyM (List Proc)) :
    Except Exc Unit × File :=
  if xml = .relative ∧ pytest then (.error (.py .notImplemented), before)
  else
    let f := if unlinkOk then File.missing else before
    match cmds with
    | .error e => (.error (.py e), f)
    | .ok ps =>
      match executeCmds ps f with
      -- the `except` clause names CalledProcessError, which `_execute_cmds` does not raise
      | (.error e, f) => (.error e, f)
      | (.ok _, f) =>
        let simulatorExitCode : Int := 0
        if pytest then
          match readResults f with
          | .error (.py .runtimeError) => (.error (.exit simulatorExitCode), f)
          | .error e => (.error e, f)
          | .ok (_, failed) =>
            if failed ≠ 0 then (.error (.exit (if simulatorExitCode = 0 then 1 else simulatorExitCode)), f)
            else if simulatorExitCode ≠ 0 then (.error (.exit simulatorExitCode), f)
            else (.ok (), f)
        else if simulatorExitCode ≠ 0 then (.error (.exit simulatorExitCode), f)
        else (.ok (), f)

end Verif.Runner
