import Verif.Py.Int
/-!
# Name, version and arguments of the simulator (VpiImpl.cpp, VhpiImpl.cpp, FliImpl.cpp, GpiCommon.cpp, bind.cpp)

`cocotb.simulator.get_simulator_product`, `get_simulator_version` and `get_simulator_args` through the three interfaces.
The simulator gives one name, one version and one list of arguments, but may fail to answer any of the calls. Texts are
texts; the decoding of arguments is left out (it cannot fail for the lack of memory only).
-/
namespace Verif.SimInfo

/-- What is asked for. -/
inductive Query where
  | product
  | version
  | args
  deriving DecidableEq, Repr

/-- What Python gets: a text or a list of texts; `garbage` if the code reads variables or entries of an array nothing has
been written to, or writes behind the end of an array. -/
inductive Answer where
  | text (s : PyStr)
  | list (l : List PyStr)
  | garbage
  deriving DecidableEq, Repr

def unknown : PyStr := "UNKNOWN".toList

/-! ## VPI -/

/-- The answer of `vpi_get_vlog_info`. -/
structure Info where
  product : PyStr
  version : PyStr
  args : List PyStr
  deriving DecidableEq, Repr

/-- A simulator: its answer, and in which calls it fails. -/
structure VpiSim where
  info : Info
  fails : Nat → Bool

/-- `VpiImpl`, with the number of calls of `vpi_get_vlog_info`. VpiImpl.hpp:349-352. -/
structure Vpi where
  product : PyStr := []
  version : PyStr := []
  args : List PyStr := []
  calls : Nat := 0
  deriving DecidableEq, Repr

/-- `VpiImpl::get_simulator_product`. VpiImpl.cpp:50-67. -/
def Vpi.ask (sim : VpiSim) (v : Vpi) : Vpi :=
  if v.product = [] then
    if sim.fails v.calls then { product := unknown, version := unknown, args := [], calls := v.calls + 1 }
    else { product := sim.info.product, version := sim.info.version, args := sim.info.args, calls := v.calls + 1 }
  else v

/-- `get_simulator_product`, `get_simulator_version`, `get_simulator_args`. VpiImpl.cpp:50-79, bind.cpp:736-767. -/
def Vpi.query (sim : VpiSim) (q : Query) (v : Vpi) : Vpi × Answer :=
  let v := v.ask sim
  (v, match q with
      | .product => .text v.product
      | .version => .text v.version
      | .args => .list v.args)

/-- The answers to a sequence of queries. -/
def Vpi.run (sim : VpiSim) : List Query → Vpi → List (Query × Answer)
  | [], _ => []
  | q :: qs, v => (q, (v.query sim q).2) :: Vpi.run sim qs (v.query sim q).1

/-! ## VHPI -/

/-- A simulator: the calls of `vhpi_handle(vhpiTool)` that give no handle; name and version; the number of arguments it
says it has, the ones its iterator gives (`none`: it gives no iterator), and the address at which it leaves the string of
the `k`-th call of `vhpi_get_str` in the loop. -/
structure VhpiSim where
  fails : Nat → Bool
  name : PyStr
  version : PyStr
  argc : Nat
  args : Option (List PyStr)
  addr : Nat → Nat

/-- `VhpiImpl`: `argv` is the array of pointers (`none`: not written), with the strings in the memory of the simulator.
VhpiImpl.hpp:320-323. -/
structure Vhpi where
  product : PyStr := []
  version : PyStr := []
  argv : Option (List (Option Nat)) := none
  mem : Nat → PyStr := fun _ => []
  calls : Nat := 0

/-- The loop over the arguments, from the `i`-th: the array and the memory; `none` if it writes behind the end of the
array. VhpiImpl.cpp:131-134. -/
def fill (addr : Nat → Nat) : Nat → List PyStr → List (Option Nat) → (Nat → PyStr) → Option (List (Option Nat) × (Nat → PyStr))
  | _, [], arr, mem => some (arr, mem)
  | i, s :: ss, arr, mem =>
    if i < arr.length then
      fill addr (i + 1) ss (arr.set i (some (addr i))) (fun a => if a = addr i then s else mem a)
    else none

/-- The list `get_argv` makes of the array: every entry is read. bind.cpp:755-765. -/
def readArgs (mem : Nat → PyStr) (arr : List (Option Nat)) : Option (List PyStr) :=
  arr.mapM fun p => p.map mem

/-- The answer with the arguments. -/
def argsAnswer (mem : Nat → PyStr) (arr : List (Option Nat)) : Answer :=
  match readArgs mem arr with
  | some l => .list l
  | none => .garbage

/-- `get_simulator_product`, `get_simulator_version`, `get_simulator_args`. VhpiImpl.cpp:95-143, bind.cpp:736-767. The
state after a write behind the end of an array is left as it was. -/
def Vhpi.query (sim : VhpiSim) (q : Query) (v : Vhpi) : Vhpi × Answer :=
  match q with
  | .product =>
    if v.product = [] then
      let p := if sim.fails v.calls then unknown else sim.name
      ({ v with product := p, calls := v.calls + 1 }, .text p)
    else (v, .text v.product)
  | .version =>
    if v.version = [] then
      let p := if sim.fails v.calls then unknown else sim.version
      ({ v with version := p, calls := v.calls + 1 }, .text p)
    else (v, .text v.version)
  | .args =>
    match v.argv with
    | some arr => (v, argsAnswer v.mem arr)
    | none =>
      if sim.fails v.calls then ({ v with calls := v.calls + 1 }, .list [])
      else
        match fill sim.addr 0 (sim.args.getD []) (List.replicate sim.argc none) v.mem with
        | none => ({ v with calls := v.calls + 1 }, .garbage)
        | some (arr, mem) => ({ v with argv := some arr, mem := mem, calls := v.calls + 1 }, argsAnswer mem arr)

/-- The answers to a sequence of queries. -/
def Vhpi.run (sim : VhpiSim) : List Query → Vhpi → List (Query × Answer)
  | [], _ => []
  | q :: qs, v => (q, (v.query sim q).2) :: Vhpi.run sim qs (v.query sim q).1

/-! ## FLI -/

/-- A simulator: the text of `mti_GetProductVersion`, the arguments in the Tcl variable, the calls in which Tcl fails. -/
structure FliSim where
  info : PyStr
  args : List PyStr
  fails : Nat → Bool

/-- `FliImpl`; `argv` is `none` before it has been read. FliImpl.hpp:477-481. -/
structure Fli where
  product : PyStr := []
  version : PyStr := []
  argv : Option (List PyStr) := none
  calls : Nat := 0
  deriving DecidableEq, Repr

/-- `info.find(search)`: what is before and behind the first place where `search` is. -/
def cut (search : PyStr) : PyStr → Option (PyStr × PyStr)
  | [] => if search = [] then some ([], []) else none
  | c :: t =>
    if search.isPrefixOf (c :: t) then some ([], (c :: t).drop search.length)
    else (cut search t).map fun p => (c :: p.1, p.2)

def search : PyStr := " Version ".toList

/-- `FliImpl::get_simulator_product`. FliImpl.cpp:455-472. -/
def Fli.ask (sim : FliSim) (f : Fli) : Fli :=
  if f.product = [] ∧ f.version = [] then
    match cut search sim.info with
    | some (p, v) => { f with product := p, version := v }
    | none => { f with product := sim.info, version := unknown }
  else f

/-- `get_simulator_product`, `get_simulator_version`, `get_simulator_args`. FliImpl.cpp:455-536, bind.cpp:736-767. If Tcl
fails nothing is written to `argc` and `argv`, whose values are read all the same (GpiCommon.cpp:762-765). -/
def Fli.query (sim : FliSim) (q : Query) (f : Fli) : Fli × Answer :=
  match q with
  | .product => (f.ask sim, .text (f.ask sim).product)
  | .version => (f.ask sim, .text (f.ask sim).version)
  | .args =>
    match f.argv with
    | some l => (f, .list l)
    | none =>
      if sim.fails f.calls then ({ f with calls := f.calls + 1 }, .garbage)
      else ({ f with argv := some sim.args, calls := f.calls + 1 }, .list sim.args)

/-- The answers to a sequence of queries. -/
def Fli.run (sim : FliSim) : List Query → Fli → List (Query × Answer)
  | [], _ => []
  | q :: qs, f => (q, (f.query sim q).2) :: Fli.run sim qs (f.query sim q).1

end Verif.SimInfo
