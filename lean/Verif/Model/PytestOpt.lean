import Verif.Model.Shlex
import Verif.Model.Runner
/-!
# Options of the pytest plugin

cocotb_tools/_pytest/_option.py, the table of plugin.py, and what `Controller.pytest_configure` puts into the environment of
the simulator. Of pytest and argparse only the conversion of values is modelled. A path is its text; `Path.resolve` is a
function that is given.
-/
namespace Verif.PytestOpt
open Verif Env Shlex Runner

/-- A value of an attribute of `config.option`. -/
inductive Val where
  | none
  | bool (b : Bool)
  | int (n : Int)
  | text (t : Text)
  | list (ts : List Text)
  deriving DecidableEq, Repr

/-- What `Option.__init__` is told besides the name: `action="store_true"`; `nargs="*"`, with `type=Path` or without;
`type=int`; `type=Path`; `type=shlex.split`; `choices`; nothing. With its default. _option.py:37-61. -/
inductive Kind where
  | flag
  | many (paths : Bool) (default : List Text)
  | int (default : Int)
  | path (default : Option Text)
  | args
  | choice (choices : List Text) (default : Option Text)
  | text (default : Option Text)
  deriving DecidableEq, Repr

/-- An option: its name, the environment variable, the kind. -/
structure Opt where
  name : Text
  env : Text
  kind : Kind
  deriving DecidableEq, Repr

/-- Everything around: the tables of Unicode, `Path.resolve`, the path relative to the configuration file. -/
structure World where
  U : Unicode
  resolve : Text → Text
  rel : Text → Text

/-- `Option.add_to_parser`: the default of the entry in the configuration file, taken from the environment.
_option.py:68-112. `get_args` is only used with an empty default. -/
def addToParser (w : World) (env : Environ) (o : Opt) : PyM Val :=
  match o.kind with
  | .flag => (getBool w.U env o.env none).map .bool
  | .many _ d => (getList env o.env (some d) [44]).map .list
  | .int d => (getInt w.U env o.env (some d)).map .int
  | .path d => .ok (.text (w.resolve (orText (getStr env o.env none) (d.getD []))))
  | .args => (getArgs env o.env none).map .list
  | .choice cs d =>
    let v := lowerText w.U (getStr env o.env d)
    if v = [] ∨ v ∈ cs then .ok (.text v)
    else if lit "yes" ∈ cs ∧ v ∈ trueWords then .ok (.text (lit "yes"))
    else if lit "no" ∈ cs ∧ v ∈ falseWords then .ok (.text (lit "no"))
    else .error .valueError
  | .text d => .ok (.text (getStr env o.env d))

/-- `group.addoption(argument, **extra)` and the command line: `given` are the words after the last occurrence of the
argument, if there is one. argparse: the attribute is `False` for a missing flag, `None` for everything else that is missing;
a usage error is written as ValueError. _option.py:123-131. -/
def parseCli (w : World) (o : Opt) (given : Option (List Text)) : PyM Val :=
  match o.kind, given with
  | .flag, none => .ok (.bool false)
  | .flag, some [] => .ok (.bool true)
  | _, none => .ok .none
  | .many _ _, some ws => .ok (.list ws)
  | .int _, some [t] => (intOf w.U t).map .int
  | .path _, some [t] => .ok (.text t)
  | .args, some [t] => (split t).map .list
  | .choice cs _, some [t] => if t ∈ cs then .ok (.text t) else .error .valueError
  | .text _, some [t] => .ok (.text t)
  | _, _ => .error .valueError

/-- The words for true and false of pytest's `_strtobool`. -/
def iniTrue : List Text := [lit "y", lit "yes", lit "t", lit "true", lit "on", lit "1"]
@[inherit_doc iniTrue] def iniFalse : List Text := [lit "n", lit "no", lit "f", lit "false", lit "off", lit "0"]

/-- `config.getini(name)`: the entry of the configuration file by its type, or the default. The types are those of
_option.py:77-112. -/
def getIni (w : World) (o : Opt) (default : Val) (entry : Option Text) : PyM Val :=
  match entry with
  | none => .ok default
  | some t =>
    match o.kind with
    | .flag =>
      let v := lowerText w.U (stripText t)
      if v ∈ iniTrue then .ok (.bool true) else if v ∈ iniFalse then .ok (.bool false) else .error .valueError
    | .many true _ => (split t).map fun ws => .list (ws.map w.rel)
    | .many false _ => (split t).map .list
    | .args => (split t).map .list
    | .int _ => (intOf w.U t).map .int
    | _ => .ok (.text t)

/-- One value after another; the first error ends it. -/
def collect (f : Opt → PyM Val) : List Opt → PyM (List (Text × Val))
  | [] => .ok []
  | o :: os =>
    match f o with
    | .error e => .error e
    | .ok v =>
      match collect f os with
      | .error e => .error e
      | .ok vs => .ok ((o.name, v) :: vs)

/-- `populate_ini_to_options` for one option: the attribute after it. _option.py:148-159. -/
def populated (w : World) (env : Environ) (ini : Text → Option Text) (cli : Text → Option (List Text)) (o : Opt) : PyM Val :=
  match addToParser w env o with
  | .error e => .error e
  | .ok d =>
    match parseCli w o (cli o.name) with
    | .error e => .error e
    | .ok v => if v = .none then getIni w o d (ini o.name) else .ok v

/-- `add_options_to_parser`, the parsing of the command line, `populate_ini_to_options`: the attributes of `config.option`.
_option.py:134-159, plugin.py:603-604, 643-647. -/
def configure (w : World) (env : Environ) (ini : Text → Option Text) (cli : Text → Option (List Text)) (os : List Opt) :
    PyM (List (Text × Val)) :=
  match collect (addToParser w env) os with
  | .error e => .error e
  | .ok _ =>
    match collect (fun o => parseCli w o (cli o.name)) os with
    | .error e => .error e
    | .ok _ => collect (populated w env ini cli) os

/-- `name.upper()` for the names below. -/
def upper (t : Text) : Text := t.map fun c => if 97 ≤ c ∧ c ≤ 122 then c - 32 else c

/-- An option whose variable is its name in capitals. _option.py:61. -/
def opt (name : String) (k : Kind) : Opt := ⟨lit name, upper (lit name), k⟩

/-- `_ENTRY_POINT`. plugin.py:58-65. -/
def entryPoint : Text :=
  lit ("cocotb_tools._coverage:start_cocotb_library_coverage,cocotb.logging:_configure," ++
    "cocotb._init:init_package_from_simulation,cocotb_tools._pytest._init:run_regression")

/-- The names of log levels. plugin.py:360-376. -/
def levels : List Text := [lit "trace", lit "debug", lit "info", lit "warning", lit "error", lit "critical"]

/-- `_OPTIONS`; `now` is `int(time())`. plugin.py:109-390. -/
def table (now : Int) : List Opt := [
  opt "cocotb_summary" .flag,
  opt "cocotb_sim_time_unit" (.choice [lit "step", lit "fs", lit "ps", lit "ns", lit "us", lit "ms", lit "sec"] (some (lit "ns"))),
  opt "cocotb_gui" .flag,
  opt "cocotb_waves" .flag,
  opt "cocotb_waveform_viewer" (.text (some (lit "surfer"))),
  ⟨lit "cocotb_seed", lit "COCOTB_RANDOM_SEED", .int now⟩,
  opt "cocotb_attach" (.int 0),
  opt "cocotb_plusargs" (.many false []),
  opt "cocotb_resolve_x" (.choice [lit "error", lit "weak", lit "zeros", lit "ones", lit "random"] none),
  opt "cocotb_scheduler_debug" .flag,
  opt "cocotb_simulator" (.choice [lit "auto", lit "verilator", lit "nvc", lit "ghdl", lit "icarus", lit "xcelium", lit "vcs",
    lit "questa", lit "riviera"] (some (lit "auto"))),
  opt "cocotb_trust_inertial_writes" .flag,
  opt "cocotb_pytest_args" .args,
  opt "cocotb_pytest_dir" (.path none),
  opt "cocotb_build_dir" (.path (some (lit "sim_build"))),
  opt "cocotb_defines" (.many false []),
  opt "cocotb_includes" (.many true []),
  opt "cocotb_parameters" (.many false []),
  opt "cocotb_library" (.text (some (lit "top"))),
  opt "cocotb_always" .flag,
  opt "cocotb_clean" .flag,
  opt "cocotb_verbose" .flag,
  opt "cocotb_timescale" (.text none),
  opt "cocotb_env" (.many false []),
  opt "cocotb_toplevel_library" (.text (some (lit "top"))),
  opt "cocotb_toplevel_lang" (.choice [lit "auto", lit "verilog", lit "vhdl"] (some (lit "auto"))),
  opt "cocotb_gpi_interfaces" (.many false []),
  opt "cocotb_build_args" .args,
  opt "cocotb_elab_args" .args,
  opt "cocotb_test_args" .args,
  opt "cocotb_pre_cmd" .args,
  opt "cocotb_log_level" (.choice levels none),
  opt "gpi_log_level" (.choice levels none),
  opt "pygpi_users" (.many false [entryPoint])]

/-! ### The environment of the simulator -/

/-- The value of an attribute as a text (an absent one is empty), a list, a number, a flag. -/
def textOf (vals : List (Text × Val)) (name : String) : Text :=
  match dictGet vals (lit name) with | some (.text t) => t | _ => []
@[inherit_doc textOf] def listOf (vals : List (Text × Val)) (name : String) : List Text :=
  match dictGet vals (lit name) with | some (.list ts) => ts | _ => []
@[inherit_doc textOf] def intVal (vals : List (Text × Val)) (name : String) : Int :=
  match dictGet vals (lit name) with | some (.int n) => n | _ => 0
@[inherit_doc textOf] def flagOf (vals : List (Text × Val)) (name : String) : Bool :=
  match dictGet vals (lit name) with | some (.bool b) => b | _ => false

/-- `Controller.pytest_configure`: the variables the simulator inherits, without those of `Verif.Shlex.handOver`.
_controller.py:109-127. -/
def exported (env : Environ) (vals : List (Text × Val)) : Environ :=
  let env := setVar env (lit "PYGPI_USERS") ((listOf vals "pygpi_users").intersperse [44]).flatten
  let env := setVar env (lit "COCOTB_RANDOM_SEED") (strInt (intVal vals "cocotb_seed"))
  let env := if textOf vals "cocotb_waveform_viewer" ≠ [] then
    setVar env (lit "COCOTB_WAVEFORM_VIEWER") (textOf vals "cocotb_waveform_viewer") else env
  let env := if intVal vals "cocotb_attach" ≠ 0 then
    setVar env (lit "COCOTB_ATTACH") (strInt (intVal vals "cocotb_attach")) else env
  let env := if textOf vals "cocotb_resolve_x" ≠ [] then
    setVar env (lit "COCOTB_RESOLVE_X") (textOf vals "cocotb_resolve_x") else env
  let env := if flagOf vals "cocotb_scheduler_debug" then setVar env (lit "COCOTB_SCHEDULER_DEBUG") (lit "1") else env
  if flagOf vals "cocotb_trust_inertial_writes" then setVar env (lit "COCOTB_TRUST_INERTIAL_WRITES") (lit "1") else env

end Verif.PytestOpt
