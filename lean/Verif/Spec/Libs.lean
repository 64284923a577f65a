import Verif.Model.Libs
import Verif.Spec.Life

/-!
Which interface library belongs to which simulator, and what it means that a run loads a set of interfaces.
-/
namespace Verif.LibsSpec

open Verif.Life Verif.Libs Verif.LifeSpec
open Verif.Runner (Sim)

/-- The interfaces a simulator can be used with: interface, simulator, name of the library, and whether this is
available on Windows. -/
def offers : List (PyStr × PyStr × PyStr × Bool) := [
  ("vpi".toList, "icarus".toList, "cocotbvpi_icarus".toList, true),
  ("vpi".toList, "verilator".toList, "cocotbvpi_verilator".toList, false),
  ("vpi".toList, "questa".toList, "cocotbvpi_modelsim".toList, true),
  ("vhpi".toList, "questa".toList, "cocotbvhpi_modelsim".toList, true),
  ("fli".toList, "questa".toList, "cocotbfli_modelsim".toList, true),
  ("vpi".toList, "modelsim".toList, "cocotbvpi_modelsim".toList, true),
  ("vhpi".toList, "modelsim".toList, "cocotbvhpi_modelsim".toList, true),
  ("fli".toList, "modelsim".toList, "cocotbfli_modelsim".toList, true),
  ("vpi".toList, "ius".toList, "cocotbvpi_ius".toList, false),
  ("vhpi".toList, "ius".toList, "cocotbvhpi_ius".toList, false),
  ("vpi".toList, "xcelium".toList, "cocotbvpi_ius".toList, false),
  ("vhpi".toList, "xcelium".toList, "cocotbvhpi_ius".toList, false),
  ("vpi".toList, "vcs".toList, "cocotbvpi_vcs".toList, false),
  ("vpi".toList, "ghdl".toList, "cocotbvpi_ghdl".toList, true),
  ("vpi".toList, "riviera".toList, "cocotbvpi_aldec".toList, true),
  ("vhpi".toList, "riviera".toList, "cocotbvhpi_aldec".toList, true),
  ("vpi".toList, "activehdl".toList, "cocotbvpi_aldec".toList, true),
  ("vhpi".toList, "activehdl".toList, "cocotbvhpi_aldec".toList, true),
  ("vpi".toList, "cvc".toList, "cocotbvpi_modelsim".toList, true),
  ("vhpi".toList, "nvc".toList, "cocotbvhpi_nvc".toList, true),
  ("vpi".toList, "dsim".toList, "cocotbvpi_dsim".toList, false)]

/-- Library `lib` is the one for interface `i` of simulator `s`, on this system. -/
def Offered (nt : Bool) (i s lib : PyStr) : Prop := ∃ o ∈ offers, o.1 = i ∧ o.2.1 = s ∧ o.2.2.1 = lib ∧ (nt = true → o.2.2.2 = true)

instance (nt : Bool) (i s lib : PyStr) : Decidable (Offered nt i s lib) := inferInstanceAs (Decidable (∃ o ∈ offers, _))

/-- The file of a library. -/
def file (I : Install) (lib : PyStr) : PyStr :=
  I.libsDir ++ "/".toList ++ (if I.msvc then [] else "lib".toList) ++ lib ++ (if I.nt then ".dll".toList else ".so".toList)

/-- MSVC is a compiler for Windows. -/
def Valid (I : Install) : Prop := I.msvc = true → I.nt = true

/-- The function of an interface library that a simulator has to call, if the simulator does not find it itself; and the
one that the GPI calls. VpiImpl.cpp:857, 866; VhpiImpl.cpp:1158, 1167; FliImpl.cpp:1163, 1172. -/
def startFunction (i : PyStr) : PyStr :=
  if i = "fli".toList then "cocotb_init".toList
  else if i = "vhpi".toList then "vhpi_startup_routines_bootstrap".toList
  else "vlog_startup_routines_bootstrap".toList

/-- The simulators that do not find the function of a library themselves, with the interface: they are given its name. -/
def blind : List (PyStr × PyStr) := [
  ("vpi".toList, "ius".toList), ("vpi".toList, "xcelium".toList), ("vpi".toList, "cvc".toList),
  ("vhpi".toList, "riviera".toList), ("vhpi".toList, "activehdl".toList)]

def gpiFunction (i : PyStr) : PyStr := "cocotb".toList ++ i ++ "_entry_point".toList

/-- How simulators are told about a library, with or without a function: `lib`, `lib:func`, `func lib`. -/
inductive Names : PyStr → PyStr → Option PyStr → Prop
  | plain (lib) : Names lib lib none
  | colon (lib func) : Names (lib ++ ':' :: func) lib (some func)
  | foreign (lib func) : Names (func ++ ' ' :: lib) lib (some func)

/-- The simulator `s` is told to load interface `i`. -/
def Told (I : Install) (s i arg : PyStr) : Prop :=
  ∃ lib func, Offered I.nt i s lib ∧ Names arg (file I lib) func ∧ (func = none ∨ func = some (startFunction i))

/-- With this value of `GPI_EXTRA`, the interfaces `is` of simulator `s` are loaded, in order, and then the users, whenever
these libraries can be loaded and have their function. -/
def Adds (I : Install) (s : PyStr) (is : List PyStr) (extra : Option PyStr) : Prop :=
  ∃ xs : List Extra, xs.length = is.length ∧
    (∀ p ∈ xs.zip is, ∃ lib, Offered I.nt p.2 s lib ∧ p.1.lib = file I lib ∧ p.1.func = gpiFunction p.2) ∧
    ∀ (L : Loader) (users : Option PyStr), (∀ x ∈ xs, x.Loads L) →
      entryPoint L extra users = (xs.flatMap Extra.events ++ (loadUsers L users).1, (loadUsers L users).2)

/-- The simulator of a runner, as cocotb_tools.config knows it. -/
def simName : Sim → PyStr
  | .icarus => "icarus".toList
  | .questa | .questaQis => "questa".toList
  | .ghdl => "ghdl".toList
  | .nvc => "nvc".toList
  | .aldec => "riviera".toList
  | .verilator => "verilator".toList
  | .xcelium => "xcelium".toList
  | .vcs => "vcs".toList
  | .dsim => "dsim".toList

/-- The runner works on this system: it has a library on Windows. -/
def Works (nt : Bool) (sim : Sim) : Prop := nt = true → sim ∉ [.verilator, .xcelium, .vcs, .dsim]

/-- A test with the runner loads the interface `first` as the entry point, and the interfaces `rest`. -/
def TestLoads (I : Install) (sim : Sim) (lang : PyStr) (given : Option (List PyStr)) (first : PyStr) (rest : List PyStr) : Prop :=
  (∃ arg, simLoads I lang (gpiInterfaces sim given) sim = .ok arg ∧ Told I (simName sim) first arg) ∧
  (∃ extra, gpiExtra I lang (gpiInterfaces sim given) sim = .ok extra ∧ Adds I (simName sim) rest extra)

/-- The simulator of a makefile. -/
def mkName : Mk → PyStr
  | .activehdl => "activehdl".toList
  | .riviera => "riviera".toList
  | .questaCompat | .questaQis => "questa".toList
  | .xcelium => "xcelium".toList
  | .ius => "ius".toList

/-- The interface for VHDL of a makefile. -/
def mkVhdl (v : MkVars) : Mk → PyStr
  | .questaCompat | .questaQis => if v.vhpi then "vhpi".toList else "fli".toList
  | _ => "vhpi".toList

/-- `make` loads the interface `first` as the entry point, and the interfaces `rest`. -/
def MakeLoads (I : Install) (m : Mk) (v : MkVars) (first : PyStr) (rest : List PyStr) : Prop :=
  (∃ arg, mkLoads I v m = .ok arg ∧ Told I (mkName m) first arg) ∧
  (∃ extra, mkExtra I v m = .ok extra ∧ Adds I (mkName m) rest extra)

end Verif.LibsSpec
