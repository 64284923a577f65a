import Verif.Model.RunCmd
import Verif.Spec.Runner
/-!
# How the simulators read their command lines

Only the options for defines, include directories and parameters, as the manuals of the simulators give them.
-/
namespace Verif.Spec
open Verif RunCmd Runner

/-- What follows a prefix. -/
def afterPrefix (p t : Text) : Option Text := if p.isPrefixOf t then some (t.drop p.length) else none

/-- `name=value`: the texts before and after the first equals sign. -/
def nameValue (t : Text) : Option (Text × Text) :=
  if 61 ∈ t then some (t.takeWhile (· != 61), (t.dropWhile (· != 61)).drop 1) else none

/-- A text without a final character `c`. -/
def beforeLast (c : Nat) (t : Text) : Option Text := if t.getLast? = some c then some t.dropLast else none

/-- `name => value`, without a blank in the name. -/
def nameArrow (t : Text) : Option (Text × Text) :=
  (afterPrefix (lit " => ") (t.dropWhile (· != 32))).map fun v => (t.takeWhile (· != 32), v)

/-- The macro an argument defines, and its text. -/
def defineOf (tool : Tool) (t : Text) : Option (Text × Text) :=
  match tool with
  | .icarus | .verilator => (afterPrefix (lit "-D") t).bind nameValue
  | .questa | .questaQis | .vcs | .dsim => (afterPrefix (lit "+define+") t).bind nameValue
  | .riviera | .activeHdl => ((afterPrefix (lit "'+define+") t).bind (beforeLast 39)).bind nameValue
  | .xcelium => (afterPrefix (lit "-define ") t).bind nameValue
  | .ghdl | .nvc => none

/-- The directory an argument adds to those searched for included files. -/
def includeOf (tool : Tool) (t : Text) : Option Text :=
  match tool with
  | .icarus | .verilator => afterPrefix (lit "-I") t
  | .questa | .questaQis | .vcs | .dsim => afterPrefix (lit "+incdir+") t
  | .riviera | .activeHdl => (afterPrefix (lit "+incdir+") t).bind tclWord
  | .xcelium => afterPrefix (lit "-incdir ") t
  | .ghdl | .nvc => none

/-- The parameter or generic of the top level an argument sets. -/
def paramOf (tool : Tool) (top : Text) (t : Text) : Option (Text × Text) :=
  match tool with
  | .icarus => (afterPrefix (lit "-P" ++ top ++ [46]) t).bind nameValue
  | .verilator => (afterPrefix (lit "-G") t).bind nameValue
  | .questa | .questaQis | .ghdl | .nvc => (afterPrefix (lit "-g") t).bind nameValue
  | .riviera | .activeHdl => ((tclWord t).bind (afterPrefix (lit "-g"))).bind nameValue
  | .xcelium => ((afterPrefix (lit "-gpg \"") t).bind (beforeLast 34)).bind nameArrow
  | .vcs => (afterPrefix (lit "-pvalue+" ++ top ++ [46]) t).bind nameValue
  | .dsim => (afterPrefix (lit "-defparam ") t).bind nameValue

/-- A text that is not taken for an option: it does not begin with a minus, a plus or a quote. -/
def NoOption (t : Text) : Prop := ∀ c, t.head? = some c → c ≠ 45 ∧ c ≠ 43 ∧ c ≠ 39

/-- The user's own argument is no define, no include directory and no parameter. -/
def NoFlag (tool : Tool) (top : Option Text) (t : Text) : Prop :=
  defineOf tool t = none ∧ includeOf tool t = none ∧ ∀ n, top = some n → paramOf tool n t = none

/-- Arguments of `build` and settings of the machine as one expects them: names and paths do not look like options, names of
defines and parameters have no equals sign, the user's own arguments are other options. -/
structure Tidy (cfg : Cfg) (tool : Tool) (b : BuildOpts) : Prop where
  own : ∀ a ∈ b.args.map (·.2) ++ cfg.cmdPrefix ++ cfg.cmdSuffix, NoFlag tool b.toplevel a
  libEntry : ∀ i s, NoOption (cfg.libEntry i s)
  shareDir : NoOption cfg.shareDir
  shareDir' : cfg.shareDir ≠ []
  exe : ∀ e, cfg.verilator = some e → NoOption e
  jobs : NoOption cfg.jobs
  paths : ∀ s ∈ b.sources ++ b.vhdlSources ++ b.verilogSources, NoOption s.2
  buildDir : NoOption b.buildDir
  buildDir' : b.buildDir ≠ []
  library : NoOption b.library
  library' : b.library ≠ []
  toplevel : ∀ n, b.toplevel = some n → NoOption n
  names : ∀ d ∈ b.defines ++ b.parameters, 61 ∉ d.1
  timescale : ∀ ts, b.timescale = some ts → NoOption ts.1 ∧ ts.1 ≠ []
  /-- Xcelium: no blank in names of parameters. -/
  blanks : tool = .xcelium → ∀ d ∈ b.parameters, 32 ∉ d.1
  /-- Aldec: directories do not have the characters that are not quoted (C88). -/
  tcl : tool = .riviera ∨ tool = .activeHdl → ∀ p ∈ b.includes ++ b.verilogSources.map (·.2) ++ b.sources.map (·.2), p ≠ [] ∧ ∀ c ∈ p, c ≠ 36 ∧ c ≠ 91 ∧ c ≠ 59

/-- The file an argument names. -/
def fileOf (tool : Tool) (t : Text) : Option Text :=
  match tool with
  | .riviera | .activeHdl => tclWord t
  | _ => some t

/-- Command `cmd` compiles file `p`. -/
def Compiles (tool : Tool) (cmd : Command) (p : Text) : Prop := ∃ a ∈ cmd, fileOf tool a = some p

/-- The sources of a build in Verilog. -/
def VerilogSource (b : BuildOpts) (p : Text) : Prop := (Tag.verilog, p) ∈ b.sources ++ b.verilogSources

/-! ### Testing -/

/-- The plus-argument an argument is. -/
def plusOf (tool : Tool) (t : Text) : Option Text := (fileOf tool t).filter fun a => a.head? = some 43

/-- Plus-arguments of cocotb's own. -/
def ownPlus : Tool → List Text
  | .riviera | .activeHdl => [lit "+access", lit "+w_nets"]
  | .dsim => [lit "+acc+rwcbfsWF"]
  | _ => []

def Plus (a : Text) : Bool := a.head? = some 43

/-- A text that Aldec's script passes on (C88). -/
def TclSafe (a : Text) : Prop := a ≠ [] ∧ ∀ c ∈ a, c ≠ 36 ∧ c ≠ 91 ∧ c ≠ 59

/-- Arguments of `test` and settings of the machine as one expects them: names and paths do not look like options, the
arguments that are not for the simulated design are no plus-arguments, names of parameters have no equals sign, and no other
argument sets a parameter. -/
structure TidyTest (cfg : Cfg) (tool : Tool) (buildArgs : List Text) (ps : List (Text × Text)) (dir : Text) (o : TestOpts) : Prop where
  buildDir : NoOption dir
  buildDir' : dir ≠ []
  toplevel : NoOption o.toplevel
  library : NoOption o.library
  library' : o.library ≠ []
  libEntry : ∀ i s, NoOption (cfg.libEntry i s)
  noPlus : ∀ a ∈ cfg.cmdPrefix ++ cfg.cmdSuffix ++ buildArgs ++ o.elabArgs ++ o.preCmd.getD [], Plus a = false
  timescale : ∀ ts, o.timescale = some ts → NoOption ts.2
  names : ∀ d ∈ ps, 61 ∉ d.1
  noParam : ∀ a ∈ cfg.cmdPrefix ++ cfg.cmdSuffix ++ buildArgs ++ o.elabArgs ++ o.preCmd.getD [] ++ o.testArgs ++ o.plusargs,
    (afterPrefix (lit "-g") a).bind nameValue = none
  tcl : tool = .riviera ∨ tool = .activeHdl → (∀ a ∈ o.testArgs ++ o.plusargs ++ [o.library ++ [46] ++ o.toplevel] ++
    ps.map (fun d => d.1 ++ [61] ++ d.2), TclSafe a) ∧ ∀ i, i = "vpi" ∨ i = "vhpi" → TclSafe (cfg.libEntry i "riviera")

/-- The parameters a call is given. -/
def givenParams : RunCmd.Call → Option (List (Text × Text))
  | .build b => some b.parameters
  | .test ps _ _ => ps

/-- The build a call is. -/
def buildOf : RunCmd.Call → Option BuildOpts
  | .build b => some b
  | .test .. => none

/-- The build directory a call is given. -/
def givenDir : RunCmd.Call → Option Text
  | .build b => some b.buildDir
  | .test _ dir _ => dir

/-- The last element, if there is one. -/
def lastOr {α : Type} (l : List α) (d : α) : α := l.getLast?.getD d

/-- The commands that follow `-do`. -/
def doCommands : List Text → List Text
  | a :: c :: rest => if a = lit "-do" then c :: doCommands rest else doCommands (c :: rest)
  | _ => []

end Verif.Spec
