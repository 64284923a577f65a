import Verif.Model.RunCmd
/-!
# Waveforms: the options of the Verilator program, the dump module for Icarus Verilog, and the file the runner attaches
-/
namespace Verif.Waves
open Verif Env Runner RunCmd

/-! ### The main program for Verilator -/

inductive Format where
  | vcd | fst | saif
  deriving DecidableEq, Repr

/-- How the design was built: `VM_TRACE`, `VM_COVERAGE`, `VM_TRACE_FST` and `VM_TRACE_SAIF`. -/
structure VBuild where
  trace : Bool
  coverage : Bool
  format : Format
  deriving DecidableEq, Repr

/-- The variables of `main`. verilator.cpp:85-94. -/
structure Opts where
  file : Text
  trace : Bool
  flush : Bool
  perInstance : Bool
  deriving DecidableEq, Repr

/-- `main` returns at once, or starts the simulation. -/
inductive Start where
  | exit (code : Int)
  | run (o : Opts)
  deriving DecidableEq, Repr

/-- The default of `traceFile`. verilator.cpp:85-91. -/
def defaultFile : Format → Text
  | .fst => lit "dump.fst"
  | .saif => lit "dump.saif"
  | .vcd => lit "dump.vcd"

/-- The loop over the arguments. verilator.cpp:96-144. -/
def options (v : VBuild) : List Text → Opts → Start
  | [], o => .run o
  | a :: rest, o =>
    if a = lit "--coverage-per-instance" then
      if v.coverage then options v rest { o with perInstance := true } else .exit (-1)
    else if a = lit "--trace" then
      if v.trace then options v rest { o with trace := true } else .exit (-1)
    else if a = lit "--trace-flush" then options v rest { o with flush := true }
    else if a = lit "--trace-file" then
      match rest with
      | f :: rest => options v rest { o with file := f }
      | [] => .exit (-1)
    else if a = lit "--help" then .exit 0
    else options v rest o

/-- `main` up to the simulation; `args` are those after the name of the program. verilator.cpp:84-165. -/
def start (v : VBuild) (args : List Text) : Start := options v args ⟨defaultFile v.format, false, false, false⟩

/-- The file that is opened. verilator.cpp:158-165. -/
def Start.opened (v : VBuild) : Start → Option Text
  | .exit _ => none
  | .run o => if v.trace && o.trace then some o.file else none

/-! ### Icarus Verilog -/

/-- The module `cocotb_iverilog_dump`: the file of the first plus-argument `dumpfile_path=`, or the one that was written into
the module when the design was built. runner.py:932-950. The name of the top level is that of `build`. -/
def icarusDump (b : BuildOpts) (args : List Text) : Option Text :=
  if b.waves then
    match args.find? fun a => (lit "+dumpfile_path=").isPrefixOf a with
    | some a => some (a.drop (lit "+dumpfile_path=").length)
    | none => some (b.buildDir ++ [47] ++ b.toplevel.getD (lit "None") ++ lit ".fst")
  else none

/-! ### The runner -/

/-- `a / b` of `pathlib`, for a text `b` without dots. -/
def joinPath (a b : Text) : Text := if b.head? = some 47 then b else a ++ [47] ++ b

/-- The waveform file that is attached to the results and opened in the viewer. runner.py:597-605, 696-700. -/
def attached (t : Tool) (o : TestOpts) : Option Text :=
  if o.waves then (wavesFile t o).map (joinPath o.testDir) else none

end Verif.Waves
