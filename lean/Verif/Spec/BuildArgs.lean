import Verif.Spec.RunCmd
/-!
# Where build arguments and the time scale belong
-/
namespace Verif.Spec
open Verif RunCmd
open Verif.Runner (lit Tag)

/-- Two lists of the same length whose elements correspond. -/
inductive Each {α β : Type} (R : α → β → Prop) : List α → List β → Prop
  | nil : Each R [] []
  | cons (a b l m) : R a b → Each R l m → Each R (a :: l) (b :: m)

/-- The arguments for one language: those tagged with it and those without a tag. -/
def forLanguage (t : Tag) (args : List (Option Tag × Text)) : List Text :=
  args.filterMap fun a => match a.1 with
    | none => some a.2
    | some g => if g = t then some a.2 else none

/-- The build arguments a command should have: for simulators with a compiler for each language, those for the language; for
others, all. Commands that compile nothing have none. -/
def argsOf (tool : Tool) (cmd : Command) (args : List (Option Tag × Text)) : List Text :=
  match tool with
  | .questa | .riviera | .activeHdl =>
    if cmd.head? = some (lit "vcom") ∨ cmd.head? = some (lit "acom") then forLanguage .vhdl args
    else if cmd.head? = some (lit "vlog") ∨ cmd.head? = some (lit "alog") then forLanguage .verilog args
    else []
  | .verilator => if cmd[1]? = some (lit "-j") then [] else args.map (·.2)
  | _ => args.map (·.2)

/-- `cmd` is `base` with `xs` at one place. -/
def Inserted (xs : List Text) (base cmd : Command) : Prop := ∃ pre post, base = pre ++ post ∧ cmd = pre ++ xs ++ post

/-- The words that follow a flag. -/
def following (flag : Text) : List Text → List Text
  | f :: w :: rest => if f = flag then w :: following flag rest else following flag (w :: rest)
  | _ => []

/-- The flag a simulator takes a time scale after. -/
def scaleFlag : Tool → Option Text
  | .verilator => some (lit "--timescale")
  | .questaQis | .xcelium => some (lit "-timescale")
  | _ => none

/-- The documentation of the runner does not say that `build` ignores the time scale. -/
def ScaleAtBuild : Tool → Prop
  | .icarus | .questaQis | .verilator | .xcelium | .ghdl | .dsim => True
  | _ => False

/-- The time scale a build uses: from its command, for Icarus Verilog from the command file. -/
inductive UsesScale (tool : Tool) (b : BuildOpts) (cmd : Command) : Text → Prop
  | flag (f s) : scaleFlag tool = some f → following f cmd = [s] → UsesScale tool b cmd s
  | file (s) : tool = .icarus → following (lit "-f") cmd = [b.buildDir ++ lit "/cmds.f"] →
      cmdsFile b = some (lit "+timescale+" ++ s ++ [10]) → UsesScale tool b cmd s

end Verif.Spec
