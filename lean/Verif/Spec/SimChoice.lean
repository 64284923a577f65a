import Verif.Model.SimChoice
/-! # What is documented of the choice of a simulator and of markers -/
namespace Verif.SimChoice.Spec
open Verif.SimChoice

/-- The simulators in the order of preference, each with the command that shows that it is installed. -/
def preference : List (String × String) :=
  [("verilator", "verilator"), ("nvc", "nvc"), ("ghdl", "ghdl"), ("icarus", "iverilog"), ("xcelium", "xrun"), ("vcs", "vcs"),
   ("questa", "vsim"), ("riviera", "vsimsa")]

/-- All simulators with a runner: name, command. -/
def all : List (String × String) :=
  [("icarus", "iverilog"), ("questa", "vsim"), ("questa-qisqrun", "qrun"), ("ghdl", "ghdl"), ("riviera", "vsimsa"),
   ("activehdl", "vsimsa"), ("verilator", "verilator"), ("xcelium", "xrun"), ("nvc", "nvc"), ("vcs", "vcs"), ("dsim", "dsim")]

/-- `s` is the preferred one of the installed simulators: it is installed, and those before it are not. -/
def Preferred (path : PyStr → Bool) (s : PyStr) : Prop :=
  ∃ before name command after, preference = before ++ (name, command) :: after ∧ s = name.toList ∧ path command.toList = true ∧
    ∀ p ∈ before, path p.2.toList = false

/-- The markers that the plugin obeys. -/
def markers : List String :=
  ["cocotb_runner", "cocotb_test", "cocotb_timeout", "cocotb_sources", "cocotb_defines", "cocotb_parameters", "cocotb_env",
   "cocotb_includes", "cocotb_plusargs", "cocotb_timescale", "cocotb_seed", "cocotb_build_args", "cocotb_elab_args",
   "cocotb_test_args", "cocotb_pre_cmd", "cocotb_library", "cocotb_waves", "cocotb_verbose", "cocotb_always", "cocotb_clean"]

/-- A name in Python: letters, digits and underscores. -/
def Identifier (s : PyStr) : Prop := s ≠ [] ∧ ∀ c ∈ s, c.isAlphanum = true ∨ c = '_'

end Verif.SimChoice.Spec
