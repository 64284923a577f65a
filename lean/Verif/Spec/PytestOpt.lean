import Verif.Model.PytestOpt
import Verif.Spec.Shlex
import Verif.Spec.Env
/-!
# Where the value of an option comes from

The command line, else the configuration file, else the environment variable, else the default. How a text is read depends on
the kind of the option only.
-/
namespace Verif.Spec
open Verif PytestOpt EnvSpec Runner

/-- The items between commas, without the blanks around them and without empty ones. -/
def CommaItems (t : Text) (ws : List Text) : Prop :=
  ∃ fs : List Text, fs ≠ [] ∧ (∀ f ∈ fs, 44 ∉ f) ∧ t = (fs.intersperse [44]).flatten ∧
    ws = (fs.map stripText).filter fun g => decide (g ≠ [])

/-- The value of an option nobody set. -/
def unsetValue (w : World) : Kind → Val
  | .flag => .bool false
  | .many _ d => .list d
  | .int d => .int d
  | .path d => .text (w.resolve (d.getD []))
  | .args => .list []
  | .choice _ d => .text (d.getD [])
  | .text d => .text (d.getD [])

/-- What words on the command line mean. -/
inductive FromCli (w : World) : Kind → List Text → Val → Prop
  | flag : FromCli w .flag [] (.bool true)
  | many (p d ws) : FromCli w (.many p d) ws (.list ws)
  | int (d t n) : intOf w.U t = .ok n → FromCli w (.int d) [t] (.int n)
  | path (d t) : FromCli w (.path d) [t] (.text t)
  | args (t ws) : Command t ws → FromCli w .args [t] (.list ws)
  | choice (cs d t) : t ∈ cs → FromCli w (.choice cs d) [t] (.text t)
  | text (d t) : FromCli w (.text d) [t] (.text t)

/-- What an entry of the configuration file means. -/
inductive FromIni (w : World) : Kind → Text → Val → Prop
  | yes (t) : lowerText w.U (stripText t) ∈ iniTrue → FromIni w .flag t (.bool true)
  | no (t) : lowerText w.U (stripText t) ∈ iniFalse → FromIni w .flag t (.bool false)
  | many (d t ws) : Command t ws → FromIni w (.many false d) t (.list ws)
  | paths (d t ws) : Command t ws → FromIni w (.many true d) t (.list (ws.map w.rel))
  | int (d t n) : intOf w.U t = .ok n → FromIni w (.int d) t (.int n)
  | path (d t) : FromIni w (.path d) t (.text t)
  | args (t ws) : Command t ws → FromIni w .args t (.list ws)
  | choice (cs d t) : FromIni w (.choice cs d) t (.text t)
  | text (d t) : FromIni w (.text d) t (.text t)

/-- What the text of a variable, without the blanks around it, means. -/
inductive FromEnv (w : World) : Kind → Text → Val → Prop
  | flag (t b) : Means b t → FromEnv w .flag t (.bool b)
  | many (p d t ws) : CommaItems t ws → ws ≠ [] → FromEnv w (.many p d) t (.list ws)
  | commas (p d t) : CommaItems t [] → FromEnv w (.many p d) t (.list d)
  | int (d t n) : intOf w.U t = .ok n → FromEnv w (.int d) t (.int n)
  | path (d t) : FromEnv w (.path d) t (.text (w.resolve t))
  | args (t ws) : Command t ws → FromEnv w .args t (.list ws)
  | choice (cs d t) : lowerText w.U t ∈ cs → FromEnv w (.choice cs d) t (.text (lowerText w.U t))
  | text (d t) : FromEnv w (.text d) t (.text t)

/-- What the environment says: a variable that is not set or blank says nothing. -/
inductive EnvValue (w : World) (k : Kind) : Option Text → Val → Prop
  | unset : EnvValue w k none (unsetValue w k)
  | blank (e) : Trimmed e [] → EnvValue w k (some e) (unsetValue w k)
  | set (e t v) : Trimmed e t → t ≠ [] → FromEnv w k t v → EnvValue w k (some e) v

/-- The value of an option, from the words on the command line, the entry of the configuration file, the variable. -/
inductive Chosen (w : World) (k : Kind) : Option (List Text) → Option Text → Option Text → Val → Prop
  | cli (ws v ini env) : FromCli w k ws v → Chosen w k (some ws) ini env v
  | ini (t v env) : FromIni w k t v → Chosen w k none (some t) env v
  | env (e v) : EnvValue w k e v → Chosen w k none none e v

/-- The default values, as documented: option, environment variable, value. `now` is the seed that was drawn. -/
def documented (w : World) (now : Int) : List (Text × Text × Val) := [
  (lit "cocotb_summary", lit "COCOTB_SUMMARY", .bool false),
  (lit "cocotb_sim_time_unit", lit "COCOTB_SIM_TIME_UNIT", .text (lit "ns")),
  (lit "cocotb_gui", lit "COCOTB_GUI", .bool false),
  (lit "cocotb_waves", lit "COCOTB_WAVES", .bool false),
  (lit "cocotb_waveform_viewer", lit "COCOTB_WAVEFORM_VIEWER", .text (lit "surfer")),
  (lit "cocotb_seed", lit "COCOTB_RANDOM_SEED", .int now),
  (lit "cocotb_attach", lit "COCOTB_ATTACH", .int 0),
  (lit "cocotb_plusargs", lit "COCOTB_PLUSARGS", .list []),
  (lit "cocotb_resolve_x", lit "COCOTB_RESOLVE_X", .text []),
  (lit "cocotb_scheduler_debug", lit "COCOTB_SCHEDULER_DEBUG", .bool false),
  (lit "cocotb_simulator", lit "COCOTB_SIMULATOR", .text (lit "auto")),
  (lit "cocotb_trust_inertial_writes", lit "COCOTB_TRUST_INERTIAL_WRITES", .bool false),
  (lit "cocotb_pytest_args", lit "COCOTB_PYTEST_ARGS", .list []),
  (lit "cocotb_pytest_dir", lit "COCOTB_PYTEST_DIR", .text (w.resolve [])),
  (lit "cocotb_build_dir", lit "COCOTB_BUILD_DIR", .text (w.resolve (lit "sim_build"))),
  (lit "cocotb_defines", lit "COCOTB_DEFINES", .list []),
  (lit "cocotb_includes", lit "COCOTB_INCLUDES", .list []),
  (lit "cocotb_parameters", lit "COCOTB_PARAMETERS", .list []),
  (lit "cocotb_library", lit "COCOTB_LIBRARY", .text (lit "top")),
  (lit "cocotb_always", lit "COCOTB_ALWAYS", .bool false),
  (lit "cocotb_clean", lit "COCOTB_CLEAN", .bool false),
  (lit "cocotb_verbose", lit "COCOTB_VERBOSE", .bool false),
  (lit "cocotb_timescale", lit "COCOTB_TIMESCALE", .text []),
  (lit "cocotb_env", lit "COCOTB_ENV", .list []),
  (lit "cocotb_toplevel_library", lit "COCOTB_TOPLEVEL_LIBRARY", .text (lit "top")),
  (lit "cocotb_toplevel_lang", lit "COCOTB_TOPLEVEL_LANG", .text (lit "auto")),
  (lit "cocotb_gpi_interfaces", lit "COCOTB_GPI_INTERFACES", .list []),
  (lit "cocotb_build_args", lit "COCOTB_BUILD_ARGS", .list []),
  (lit "cocotb_elab_args", lit "COCOTB_ELAB_ARGS", .list []),
  (lit "cocotb_test_args", lit "COCOTB_TEST_ARGS", .list []),
  (lit "cocotb_pre_cmd", lit "COCOTB_PRE_CMD", .list []),
  (lit "cocotb_log_level", lit "COCOTB_LOG_LEVEL", .text []),
  (lit "gpi_log_level", lit "GPI_LOG_LEVEL", .text []),
  (lit "pygpi_users", lit "PYGPI_USERS", .list [lit ("cocotb_tools._coverage:start_cocotb_library_coverage,cocotb.logging:_configure," ++
    "cocotb._init:init_package_from_simulation,cocotb_tools._pytest._init:run_regression")])]

end Verif.Spec
