import Verif.Model.Life
import Verif.Model.Runner

/-!
# Which libraries are loaded (cocotb_tools/config.py, cocotb_build_libs.py, runner.py, the makefiles)

The names of the interface libraries, the files the installation has, what a runner or a makefile tells the simulator
to load, and what it writes to `GPI_EXTRA`. What the simulator's process does with `GPI_EXTRA` and `GPI_USERS` is
`Life.entryPoint`.

Simplifications:
  * Paths are texts in POSIX form (`as_posix`); the directory of the libraries is not the root.
  * `str.lower` changes the letters A to Z only.
  * The file system has exactly the libraries that the build makes.
  * The shell, Tcl and the simulators pass paths on unchanged.
-/
namespace Verif.Libs

open Verif.Runner (Sim)

/-- An installation. -/
structure Install where
  /-- `os.name == "nt"`; `posix` otherwise. -/
  nt : Bool
  /-- The libraries were compiled with MSVC: `gpi.dll` is a file. config.py:160. -/
  msvc : Bool
  /-- `libs_dir`. config.py:39. -/
  libsDir : PyStr
  /-- `Path(cocotb.simulator.__file__).resolve()`. -/
  simulator : PyStr

/-- `str.lower`. -/
def lower (t : PyStr) : PyStr := t.map Char.toLower

/-- `supported_interfaces`. config.py:119. -/
def interfaces : List PyStr := ["vpi".toList, "vhpi".toList, "fli".toList]

/-- `supported_sims`. config.py:126-140. -/
def simulators : List PyStr :=
  ["icarus".toList, "verilator".toList, "questa".toList, "modelsim".toList, "ius".toList, "xcelium".toList, "vcs".toList,
   "ghdl".toList, "riviera".toList, "activehdl".toList, "cvc".toList, "nvc".toList, "dsim".toList]

/-- `library_name`. config.py:146-153. -/
def libraryName (simulatorName : PyStr) : PyStr :=
  if simulatorName ∈ ["questa".toList, "cvc".toList] then "modelsim".toList
  else if simulatorName = "xcelium".toList then "ius".toList
  else if simulatorName ∈ ["riviera".toList, "activehdl".toList] then "aldec".toList
  else simulatorName

/-- `lib_ext`. config.py:155-158. -/
def libExt (nt : Bool) : PyStr := if nt then ".dll".toList else ".so".toList

/-- `lib_prefix`. config.py:160-164. -/
def libPrefix (msvc : Bool) : PyStr := if msvc then [] else "lib".toList

/-- `lib_name`. config.py:166. -/
def libName (nt msvc : Bool) (interfaceName simulatorName : PyStr) : PyStr :=
  libPrefix msvc ++ "cocotb".toList ++ interfaceName ++ "_".toList ++ libraryName simulatorName ++ libExt nt

/-- `lib_name_path`. config.py:113-167. -/
def libNamePath (I : Install) (interface simulator : PyStr) : PyM PyStr :=
  if lower interface ∈ interfaces then
    if simulator ∈ simulators then .ok (I.libsDir ++ '/' :: libName I.nt I.msvc (lower interface) (lower simulator))
    else .error .valueError
  else .error .valueError

/-- `entry_functions`. config.py:182-188. -/
def entryFunction (interfaceName simulatorName : PyStr) : Option PyStr :=
  if interfaceName = "vpi".toList ∧ simulatorName ∈ ["cvc".toList, "ius".toList, "xcelium".toList] then
    some "vlog_startup_routines_bootstrap".toList
  else if interfaceName = "vhpi".toList ∧ simulatorName ∈ ["activehdl".toList, "riviera".toList] then
    some "vhpi_startup_routines_bootstrap".toList
  else none

/-- `lib_entry`. config.py:170-193. -/
def libEntry (I : Install) (interface simulator : PyStr) : PyM PyStr :=
  match libNamePath I (lower interface) (lower simulator) with
  | .error e => .error e
  | .ok library =>
    match entryFunction (lower interface) (lower simulator) with
    | none => .ok library
    | some f => .ok (library ++ ':' :: f)

/-- `pygpi_entry_point`. config.py:107-110. -/
def pygpiEntryPoint (I : Install) : PyStr := I.simulator ++ ",initialize".toList

/-- The interface libraries that are built, by name. cocotb_build_libs.py:601-756, names 530, 555, 636. -/
def extensions (nt : Bool) : List PyStr :=
  ["libcocotbvpi_icarus".toList, "libcocotbvpi_modelsim".toList, "libcocotbvhpi_modelsim".toList,
    "libcocotbfli_modelsim".toList, "libcocotbvpi_ghdl".toList] ++
  (if nt then [] else ["libcocotbvpi_ius".toList, "libcocotbvhpi_ius".toList, "libcocotbvpi_vcs".toList]) ++
  ["libcocotbvpi_aldec".toList, "libcocotbvhpi_aldec".toList] ++
  (if nt then [] else ["libcocotbvpi_verilator".toList]) ++
  ["libcocotbvhpi_nvc".toList] ++
  (if nt then [] else ["libcocotbvpi_dsim".toList])

/-- `get_ext_filename`: the prefix `lib` is stripped if MSVC is used. cocotb_build_libs.py:342-368. -/
def extFilename (nt msvc : Bool) (name : PyStr) : PyStr :=
  (if msvc && "lib".toList.isPrefixOf name then name.drop 3 else name) ++ libExt nt

/-- The files of the interface libraries. -/
def installed (I : Install) : List PyStr :=
  (extensions I.nt).map fun n => I.libsDir ++ '/' :: extFilename I.nt I.msvc n

/-! ## The runners -/

/-- `supported_gpi_interfaces`: languages and their interfaces. -/
def supported : Sim → List (PyStr × List PyStr)
  | .icarus => [("verilog".toList, ["vpi".toList])] -- runner.py:904
  | .questa => [("verilog".toList, ["vpi".toList]), ("vhdl".toList, ["fli".toList, "vhpi".toList])] -- runner.py:1052-1055
  | .questaQis => [("verilog".toList, ["vpi".toList]), ("vhdl".toList, ["fli".toList, "vhpi".toList])] -- 1210-1213
  | .ghdl => [("vhdl".toList, ["vpi".toList])] -- runner.py:1412
  | .nvc => [("vhdl".toList, ["vhpi".toList])] -- runner.py:1543
  | .aldec => [("verilog".toList, ["vpi".toList]), ("vhdl".toList, ["vhpi".toList])] -- runner.py:1647-1650
  | .verilator => [("verilog".toList, ["vpi".toList])] -- runner.py:1877
  | .xcelium => [("verilog".toList, ["vpi".toList]), ("vhdl".toList, ["vhpi".toList])] -- runner.py:2011-2014
  | .vcs => [("verilog".toList, ["vpi".toList])] -- runner.py:2186
  | .dsim => [("verilog".toList, ["vpi".toList])] -- runner.py:2286

/-- `self.gpi_interfaces`, from the argument of `test`. runner.py:564-569. -/
def gpiInterfaces (sim : Sim) : Option (List PyStr) → List PyStr
  | some (i :: is) => i :: is
  | _ => (supported sim).filterMap fun l => l.2.head?

/-- What the simulator is told to load. Icarus 1035, Questa 1138-1156, QuestaQIS 1341-1359, Ghdl 1523, Nvc 1630, Aldec
1716-1746 (both simulators), Verilator 1948-1949 (linked to the program, as
`libs_dir/libcocotbvpi_verilator.so`), Xcelium 2153-2154, Vcs 2240, DSim 2327-2328. -/
def simLoads (I : Install) (lang : PyStr) (ifs : List PyStr) : Sim → PyM PyStr
  | .icarus => libEntry I "vpi".toList "icarus".toList
  | .questa | .questaQis =>
    if ifs.head? = some "fli".toList then
      (libNamePath I "fli".toList "questa".toList).map fun p => "cocotb_init ".toList ++ p
    else if ifs.head? = some "vhpi".toList then
      (libNamePath I "vhpi".toList "questa".toList).map fun p => "vhpi_startup_routines_bootstrap ".toList ++ p
    else libEntry I "vpi".toList "questa".toList
  | .ghdl => libEntry I "vpi".toList "ghdl".toList
  | .nvc => libEntry I "vhpi".toList "nvc".toList
  | .aldec =>
    if lang = "vhdl".toList then libEntry I "vhpi".toList "riviera".toList else libEntry I "vpi".toList "riviera".toList
  | .verilator => .ok (I.libsDir ++ "/libcocotbvpi_verilator.so".toList)
  | .xcelium => libEntry I "vpi".toList "xcelium".toList
  | .vcs => libEntry I "vpi".toList "vcs".toList
  | .dsim => libEntry I "vpi".toList "dsim".toList

/-- `gpi_extra_list` of the runners for Questa; a library that is not a file raises RuntimeError. runner.py:1178-1186,
1390-1398. -/
def questaExtra (I : Install) : List PyStr → PyM (List PyStr)
  | [] => .ok []
  | i :: is =>
    match libNamePath I i "questa".toList with
    | .error e => .error e
    | .ok p =>
      if p ∈ installed I then
        (questaExtra I is).map fun l => (p ++ ':' :: ("cocotb".toList ++ i ++ "_entry_point".toList)) :: l
      else .error .runtimeError

/-- `sep.join(l)`. -/
def join (sep : Char) : List PyStr → PyStr
  | [] => []
  | [t] => t
  | t :: ts => t ++ sep :: join sep ts

/-- What the runner sets `GPI_EXTRA` to; `none`: it does not. Questa 1187, QuestaQIS 1399, Aldec 1734-1737 and 1753-1756,
Xcelium 2168-2171. -/
def gpiExtra (I : Install) (lang : PyStr) (ifs : List PyStr) : Sim → PyM (Option PyStr)
  | .questa | .questaQis => (questaExtra I ifs.tail).map fun l => some (join ',' l)
  | .aldec =>
    if lang = "vhdl".toList then
      (libEntry I "vpi".toList "riviera".toList).map fun p => some (p ++ ":cocotbvpi_entry_point".toList)
    else (libNamePath I "vhpi".toList "riviera".toList).map fun p => some (p ++ ":cocotbvhpi_entry_point".toList)
  | .xcelium => (libNamePath I "vhpi".toList "xcelium".toList).map fun p => some (p ++ ":cocotbvhpi_entry_point".toList)
  | _ => .ok none

/-- `GPI_USERS` as a runner or Makefile.inc sets it. runner.py:285-303, Makefile.inc:106-121. -/
def gpiUsers (I : Install) (libpython : PyStr) : PyStr := join ';' [libpython, pygpiEntryPoint I]

/-! ## The makefiles of simulators for both languages -/

/-- The makefiles that can load two interfaces. -/
inductive Mk where
  | activehdl | riviera | questaCompat | questaQis | xcelium | ius
  deriving DecidableEq, Repr

/-- Variables of a makefile: `TOPLEVEL_LANG` (verilog or vhdl), whether `VHDL_SOURCES`, `VHDL_SOURCES_<lib>` (for some
library) and `VERILOG_SOURCES` are not empty, and `VHDL_GPI_INTERFACE` (fli or vhpi). -/
structure MkVars where
  vhdlTop : Bool
  vhdlSources : Bool
  libSources : Bool
  verilogSources : Bool
  vhpi : Bool

/-- `VHDL_GPI_INTERFACE`. Makefile.questa-compat:55-59, Makefile.questa-qisqrun:76-80. -/
def MkVars.vhdlIf (v : MkVars) : PyStr := if v.vhpi then "vhpi".toList else "fli".toList

/-- What the simulator is told to load. Makefile.activehdl:37, 44; Makefile.riviera:70, 76; Makefile.questa-compat:61-74;
Makefile.questa-qisqrun:82-95; Makefile.xcelium:57; Makefile.ius:49. -/
def mkLoads (I : Install) (v : MkVars) : Mk → PyM PyStr
  | .activehdl => if v.vhdlTop then libEntry I "vhpi".toList "activehdl".toList else libEntry I "vpi".toList "activehdl".toList
  | .riviera => if v.vhdlTop then libEntry I "vhpi".toList "riviera".toList else libEntry I "vpi".toList "riviera".toList
  | .questaCompat | .questaQis =>
    if v.vhdlTop then
      if v.vhpi then
        (libNamePath I "vhpi".toList "questa".toList).map fun p => "vhpi_startup_routines_bootstrap ".toList ++ p
      else (libNamePath I "fli".toList "questa".toList).map fun p => "cocotb_init ".toList ++ p
    else libEntry I "vpi".toList "questa".toList
  | .xcelium => libEntry I "vpi".toList "xcelium".toList
  | .ius => libEntry I "vpi".toList "ius".toList

/-- The value of `GPI_EXTRA`; `none` if the makefile does not set it. Makefile.activehdl:34-47, Makefile.riviera:68-79,
Makefile.questa-compat:53-77, Makefile.questa-qisqrun:74-98, Makefile.xcelium:58-67, Makefile.ius:51-60. -/
def mkExtra (I : Install) (v : MkVars) : Mk → PyM (Option PyStr)
  | .activehdl =>
    if v.vhdlTop then
      if v.verilogSources then
        (libNamePath I "vpi".toList "activehdl".toList).map fun p => some (p ++ ":cocotbvpi_entry_point".toList)
      else .ok (some [])
    else if v.vhdlSources then
      (libNamePath I "vhpi".toList "activehdl".toList).map fun p => some (p ++ ":cocotbvhpi_entry_point".toList)
    else .ok (some [])
  | .riviera =>
    if v.vhdlTop then
      if v.verilogSources then
        (libNamePath I "vpi".toList "riviera".toList).map fun p => some (p ++ ":cocotbvpi_entry_point".toList)
      else .ok (some [])
    else if v.vhdlSources then
      (libNamePath I "vhpi".toList "riviera".toList).map fun p => some (p ++ ":cocotbvhpi_entry_point".toList)
    else .ok (some [])
  | .questaCompat | .questaQis =>
    if v.vhdlTop then
      if v.verilogSources then
        (libNamePath I "vpi".toList "questa".toList).map fun p => some (p ++ ":cocotbvpi_entry_point".toList)
      else .ok (some [])
    else if v.vhdlSources then
      (libNamePath I v.vhdlIf "questa".toList).map fun p => some (p ++ ":cocotb".toList ++ v.vhdlIf ++ "_entry_point".toList)
    else .ok (some [])
  | .xcelium =>
    if v.vhdlTop || v.vhdlSources then
      (libNamePath I "vhpi".toList "xcelium".toList).map fun p => some (p ++ ":cocotbvhpi_entry_point".toList)
    else .ok none
  | .ius =>
    if v.vhdlTop || v.vhdlSources then
      (libNamePath I "vhpi".toList "ius".toList).map fun p => some (p ++ ":cocotbvhpi_entry_point".toList)
    else .ok none

end Verif.Libs
