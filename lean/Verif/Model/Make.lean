import Verif.Model.Runner
/-!
Model of the makefiles in src/cocotb_tools/makefiles: Makefile.inc, Makefile.sim and the rules of simulators/Makefile.*, with the part of
GNU make they rely on (one job at a time, unless said otherwise; no `-k`, `-i`, `-t` or `-n`).

The results file, its contents and `check_results` are those of `Model/Runner`. Other files have contents only as far as needed to say
which sources, compiled with which arguments, are simulated.
-/
namespace Verif.Make

/-- The rules that apply, by simulator (and mode). `skip`: the sources are in a language the simulator does not support. -/
inductive Flow
  | icarus | verilator | vcs | dsim | cvcInterp | cvcCompiled | ghdl | nvc | activehdl | riviera | questaCompat | questaQrun | xcelium | ius
  | skip
  deriving DecidableEq, Repr

/-- Targets and prerequisites. `src`: VERILOG_SOURCES and VHDL_SOURCES; `cdep`: CUSTOM_COMPILE_DEPS; `sdep`: CUSTOM_SIM_DEPS; `dir`:
SIM_BUILD; `mk`: Vtop.mk; `out`: the compiled design (sim.vvp, Vtop, simv, image.so, the libraries of ghdl and nvc) or the script
(runsim.tcl, runsim.do); `results`: COCOTB_RESULTS_FILE. The help target and `debug` are left out. -/
inductive Tgt
  | sim | rmResults | regression | analyse
  | src (i : Nat) | cdep (i : Nat) | sdep (i : Nat) | dir | mk | out | results
  deriving DecidableEq, Repr

/-- `.PHONY`: Makefile.inc:14, 77; Makefile.ghdl:69, Makefile.nvc:31. In Makefile.inc:14 `sim,` is declared instead of `sim`: as no file
`sim` is made and the rule has no commands, that makes no difference. -/
def Tgt.phony : Tgt → Bool
  | .rmResults | .regression | .analyse => true
  | _ => false

/-- What is simulated: versions of the sources and of the CUSTOM_COMPILE_DEPS, and of the arguments of the compiler. -/
structure Design where
  srcs : List Nat
  cdeps : List Nat
  args : Nat
  deriving DecidableEq, Repr

inductive Content
  | text (version : Nat)
  | design (d : Design)
  | script (args : Nat)
  | xml (f : Runner.File) (of : Design)

/-- A file. -/
structure Entry where
  mtime : Nat
  content : Content

/-- What happened. -/
inductive Ev
  | compiled (d : Design)
  | ran (d : Design) (code : Nat) (wrote : Runner.File)

/-- Files, the time, and what happened. -/
structure St where
  fs : Tgt → Option Entry
  clock : Nat
  log : List Ev

/-- The compilers and simulators, as an environment: what the command that runs at a time does. A compiler ends with a code and may write its
output; a simulator ends with a code and leaves a results file (or not). -/
structure World where
  compile : Nat → Nat × Bool
  run : Nat → Nat × Runner.File

/-- The make variables that matter: the numbers of sources, CUSTOM_COMPILE_DEPS and CUSTOM_SIM_DEPS, and the arguments. -/
structure Vars where
  flow : Flow
  nsrc : Nat
  ncdep : Nat
  nsdep : Nat
  args : Nat

/-- Commands of the recipes. -/
inductive Cmd
  | rm | mkdir | echo | compile (to : Tgt) | cc | script | run | compileRun | check
  deriving DecidableEq, Repr

/-- A line of a recipe; `ignore`: it begins with `-`. -/
structure Line where
  cmd : Cmd
  ignore : Bool := false

structure Rule where
  deps : List Tgt
  order : List Tgt := []
  recipe : List Line := []

def Vars.srcs (v : Vars) : List Tgt := (List.range v.nsrc).map .src
def Vars.cdeps (v : Vars) : List Tgt := (List.range v.ncdep).map .cdep
def Vars.sdeps (v : Vars) : List Tgt := (List.range v.nsdep).map .sdep

/-- Recipe of most rules for the results file. -/
def simulate : List Line := [⟨.rm, false⟩, ⟨.run, false⟩, ⟨.check, false⟩]

/-- The rule for the results file: Makefile.icarus:11-12, 66-72 (the first also, likewise, in the makefiles of verilator, vcs, cvc, ghdl
and nvc; that of verilator is for `results.xml`, whatever the name of the file), Makefile.verilator:71-77, Makefile.vcs:57-63,
Makefile.dsim:29-34, Makefile.cvc:37-43, Makefile.ghdl:78-84, Makefile.nvc:50-58, Makefile.activehdl:66-72, Makefile.riviera:138-144,
Makefile.questa-compat:129-139, Makefile.questa-qisqrun:116-139, Makefile.xcelium:91-104, Makefile.ius:81-93. The checks of
VHDL_LIB_ORDER are left out. -/
def resultsRule (v : Vars) : Rule :=
  match v.flow with
  | .skip => { deps := [], recipe := [⟨.echo, false⟩] }
  | .icarus | .vcs | .dsim => { deps := .out :: v.sdeps, recipe := simulate }
  | .verilator => { deps := .out :: v.sdeps, recipe := [⟨.rm, false⟩, ⟨.run, true⟩, ⟨.check, false⟩] }
  | .cvcInterp => { deps := [.out] }
  | .cvcCompiled => { deps := .out :: v.sdeps, recipe := [⟨.run, false⟩] }
  | .ghdl | .nvc => { deps := .analyse :: v.sdeps, recipe := simulate }
  | .activehdl | .riviera => { deps := .out :: (v.cdeps ++ v.sdeps), recipe := simulate }
  | .questaCompat => { deps := [.out], recipe := simulate }
  | .questaQrun => { deps := [], recipe := simulate }
  | .xcelium | .ius => { deps := v.srcs ++ v.cdeps ++ v.sdeps, order := [.dir], recipe := simulate }

/-- The rule for the compiled design or the script: Makefile.icarus:52-54, Makefile.verilator:68-69, Makefile.vcs:49-54,
Makefile.dsim:26-27, Makefile.cvc:32-34, Makefile.activehdl:53-63, Makefile.riviera:93-134, Makefile.questa-compat:90-123. -/
def outRule (v : Vars) : Option Rule :=
  match v.flow with
  | .icarus | .vcs | .cvcCompiled => some { deps := v.srcs ++ v.cdeps, order := [.dir], recipe := [⟨.compile .out, false⟩] }
  | .dsim => some { deps := v.srcs ++ v.cdeps, recipe := [⟨.compile .out, false⟩] }
  | .verilator => some { deps := [.mk], recipe := [⟨.cc, false⟩] }
  | .cvcInterp => some { deps := v.srcs ++ v.cdeps, order := [.dir], recipe := [⟨.compileRun, false⟩] }
  | .activehdl | .riviera => some { deps := v.srcs, order := [.dir], recipe := [⟨.script, false⟩] }
  | .questaCompat => some { deps := v.srcs ++ v.cdeps ++ v.sdeps, order := [.dir], recipe := [⟨.script, false⟩] }
  | _ => none

/-- All rules. Makefile.inc:15-17, 73-78; `analyse`: Makefile.ghdl:72-76, Makefile.nvc:41-48; `mk`: Makefile.verilator:64-65, where
verilator.cpp is another prerequisite. -/
def rule (v : Vars) : Tgt → Option Rule
  | .sim => some { deps := [.rmResults, .regression] }
  | .rmResults => some { deps := [], recipe := [⟨.rm, false⟩] }
  | .regression => some { deps := [.results] }
  | .dir => some { deps := [], recipe := [⟨.mkdir, false⟩] }
  | .results => some (resultsRule v)
  | .out => outRule v
  | .mk => match v.flow with
    | .verilator => some { deps := v.srcs ++ v.cdeps, order := [.dir], recipe := [⟨.compile .mk, false⟩] }
    | _ => none
  | .analyse => match v.flow with
    | .ghdl => some { deps := v.srcs ++ v.cdeps, order := [.dir], recipe := [⟨.compile .out, false⟩] }
    | .nvc => some { deps := v.srcs ++ [.dir] ++ v.cdeps, recipe := [⟨.compile .out, false⟩] }
    | _ => none
  | .src _ | .cdep _ | .sdep _ => none

def version (s : St) (t : Tgt) : Nat :=
  match s.fs t with
  | some ⟨_, .text n⟩ => n
  | _ => 0

/-- What a compiler compiles now. -/
def current (v : Vars) (s : St) : Design := ⟨v.srcs.map (version s), v.cdeps.map (version s), v.args⟩

/-- What the simulator simulates: the compiled design, or what it compiles itself, as its script or its command line says. -/
def simulated (v : Vars) (s : St) : Design :=
  match v.flow, s.fs .out with
  | .xcelium, _ | .ius, _ | .questaQrun, _ | .skip, _ => current v s
  | _, some ⟨_, .design d⟩ => d
  | _, some ⟨_, .script a⟩ => { current v s with args := a }
  | _, _ => current v s

def St.write (s : St) (t : Tgt) (c : Content) : St :=
  { s with fs := fun x => if x = t then some ⟨s.clock, c⟩ else s.fs x }

def St.remove (s : St) (t : Tgt) : St := { s with fs := fun x => if x = t then none else s.fs x }

/-- The results file. -/
def St.resultsFile (s : St) : Runner.File :=
  match s.fs .results with
  | some ⟨_, .xml f _⟩ => f
  | some _ => .malformed
  | none => .missing

/-- The exit status of `python -m cocotb_tools.check_results`, check_results.py:51-64: `sys.exit(num_failed)`, of which the system keeps
eight bits; 1 for exceptions. -/
def checkCode (f : Runner.File) : Nat :=
  match Runner.readResults f with
  | .ok (_, failed) => failed % 256
  | .error _ => 1

/-- A simulator runs and leaves what the environment says. A simulator that leaves no results file leaves the file as it is. -/
def St.simulate (s : St) (d : Design) (r : Nat × Runner.File) : St :=
  let s := { s with log := s.log ++ [.ran d r.1 r.2] }
  match r.2 with
  | .missing => s
  | f => s.write .results (.xml f d)

/-- A command is run: the state after it and its exit status. Each takes some time. -/
def exec (w : World) (v : Vars) (c : Cmd) (s : St) : St × Nat :=
  let r : St × Nat := match c with
    | .rm => (s.remove .results, 0)
    | .mkdir => (s.write .dir (.text 0), 0)
    | .echo => (s, 0)
    | .compile t =>
      let p := w.compile s.clock
      let s := if p.1 = 0 then { s with log := s.log ++ [.compiled (current v s)] } else s
      (if p.2 then s.write t (.design (current v s)) else s, p.1)
    | .cc =>
      let p := w.compile s.clock
      (match s.fs .mk with
        | some ⟨_, c⟩ => if p.2 then s.write .out c else s
        | none => s, p.1)
    | .script => (s.write .out (.script v.args), 0)
    | .run =>
      let p := w.run s.clock
      (s.simulate (simulated v s) p, p.1)
    | .compileRun =>
      let p := w.compile s.clock
      let q := w.run s.clock
      if p.1 = 0 then ((s.write .out (.design (current v s))).simulate (current v s) q, q.1)
      else (if p.2 then s.write .out (.design (current v s)) else s, p.1)
    | .check => (s, checkCode s.resultsFile)
  ({ r.1 with clock := s.clock + 1 }, r.2)

/-- GNU make runs the lines of a recipe one after the other, up to the first that fails. -/
def runLines (w : World) (v : Vars) : List Line → St → St × Bool
  | [], s => (s, true)
  | l :: ls, s =>
    let r := exec w v l.cmd s
    if r.2 = 0 ∨ l.ignore then runLines w v ls r.1 else (r.1, false)

/-- Whether GNU make must remake a target: it is phony, did not exist, or a prerequisite (not an order-only one) does not exist or is newer. A
phony prerequisite never exists. A prerequisite that was remade but not written is not newer. -/
def mustRemake (t : Tgt) (old : Option Entry) (deps : List Tgt) (s : St) : Bool :=
  t.phony || match old with
    | none => true
    | some o => deps.any fun d => d.phony || match s.fs d with
      | none => true
      | some e => decide (o.mtime < e.mtime)

/-- GNU make updates prerequisites in order, up to the first error. -/
def allOk (f : Tgt → St → St × Bool) : List Tgt → St → St × Bool
  | [], s => (s, true)
  | t :: ts, s =>
    let p := f t s
    if p.2 then allOk f ts p.1 else p

/-- GNU make updates a target: first its prerequisites; then, if it must be remade, its recipe is run. The second result says whether
no error occurred. The first argument limits the depth. A target without rule must exist. -/
def update (w : World) (v : Vars) : Nat → Tgt → St → St × Bool
  | 0, _, s => (s, false)
  | n + 1, t, s =>
    match rule v t with
    | none => (s, (s.fs t).isSome)
    | some r =>
      let p := allOk (update w v n) (r.deps ++ r.order) s
      if p.2 then
        if mustRemake t (s.fs t) r.deps p.1 then runLines w v r.recipe p.1 else p
      else p

/-- `make <goal>`: the state after it, and whether the exit status is 0. -/
def make (w : World) (v : Vars) (goal : Tgt) (s : St) : St × Bool := update w v 8 goal s

/-- `make -j2 sim` when the results file is looked at before `rm` has removed it; the file goes away after that, and the time at which it
goes is the end of the run here. -/
def makeSimRace (w : World) (v : Vars) (s : St) : St × Bool :=
  let p := update w v 8 .regression s
  ((exec w v .rm p.1).1, p.2)

/-- What is done in a directory. `edit`: a source or other input is written; `clean`: Makefile.inc:168-170. -/
inductive Step
  | edit (t : Tgt) (version : Nat)
  | clean
  | make (args : Nat) (goal : Tgt)

/-- `v` are the variables that do not change. -/
def stepSt (w : World) (v : Vars) (s : St) : Step → St
  | .edit t n => { s.write t (.text n) with clock := s.clock + 1 }
  | .clean => { ((((s.remove .dir).remove .mk).remove .out).remove .results) with clock := s.clock + 1 }
  | .make a g => (make w { v with args := a } g s).1

end Verif.Make
